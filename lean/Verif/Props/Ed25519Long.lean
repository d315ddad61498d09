import Verif.Props.Ed25519
import Verif.Props.HmacLong

/-! # C113: Ed25519 for messages of every length -/

namespace CryptoPure.Props.Ed25519
open CryptoPure.Model CryptoPure.Model.Ed25519 CryptoPure.Spec CryptoPure.Spec.Ed25519 CryptoPure.Ed CryptoPure.Model.Fe

/-- Signing, RFC 8032 section 5.1.6, with `H` as the hash of the two strings that contain the message. -/
def signOver (H : Bytes → Bytes) (M sk : Bytes) : Bytes :=
  let r := leNat (H ((Spec.Sha2.sha512 sk).drop 32 ++ M))
  let R := encode (smul r B)
  let k := leNat (H (R ++ publicKey sk ++ M))
  R ++ toLE 32 ((r + k * secretScalar sk) % L)

/-- What `verify` asks for before it hashes anything: 64 bytes, the top three bits clear, and a key that decodes. -/
def WellFormed (sig pk : Bytes) : Prop :=
  sig.length = 64 ∧ leNat (sig.drop 32) < 2 ^ 253 ∧ ∃ A, DecodesLax pk A

/-- SHA-512 with the bit length in the padding taken modulo `2^64`: see `C111_wrapped_short`. -/
abbrev wrapped512 : Bytes → Bytes := Variant.sha512.wrapped

theorem wrapped512_length (x : Bytes) : (wrapped512 x).length = 64 := Proofs.digestWith_length _ _ (by decide) _ _

theorem hash_release_eq (parts : List Bytes) : Model.Ed25519.hashParts .release parts = some (wrapped512 parts.flatten) :=
  C05_release_wraps .sha512 parts (zeros 64) (by decide)

theorem hash_debug_none (parts : List Bytes) (hp : ∀ p ∈ parts, p.length < 2 ^ 64) (h : 2 ^ 61 ≤ parts.flatten.length) :
    Model.Ed25519.hashParts .debug parts = none :=
  C05_debug_panics .sha512 parts (zeros 64) hp h

/-- For messages within the range of the length counter it makes no difference. -/
theorem C113_sign_short (M sk : Bytes) (hM : M.length + 64 < 2 ^ 61) : signOver wrapped512 M sk = Spec.Ed25519.sign M sk := by
  have hl : ((Spec.Sha2.sha512 sk).drop 32).length = 32 := by rw [List.length_drop, sha512_length]
  have hpk : (publicKey sk).length = 32 := encode_length _
  unfold signOver Spec.Ed25519.sign
  have e1 : wrapped512 ((Spec.Sha2.sha512 sk).drop 32 ++ M) = Spec.Sha2.sha512 ((Spec.Sha2.sha512 sk).drop 32 ++ M) :=
    C111_wrapped_short .sha512 _ (by rw [List.length_append, hl]; omega)
  have e2 : ∀ R : Bytes, R.length = 32 → wrapped512 (R ++ publicKey sk ++ M) = Spec.Sha2.sha512 (R ++ publicKey sk ++ M) := fun R hR =>
    C111_wrapped_short .sha512 _ (by rw [List.length_append, List.length_append, hpk, hR]; omega)
  simp only [e1, e2 _ (encode_length _)]

/-- The steps of `sign` up to the first hash of the message do not fail. -/
theorem sign_first (m : Mode) {M sk : Bytes} (h : sk.length = 32) (h1 : Model.Ed25519.hashParts m [(Spec.Sha2.sha512 sk).drop 32, M] = none) :
    Model.Ed25519.sign m M sk = none := by
  obtain ⟨az, a, e1, eaz, c1, c2, c3, e2, e3⟩ := secretScalar_spec m h
  rw [← c2] at h1
  refine bind_step (a := ()) (by simp [assert, h]) <| bind_step e1 <| bind_step e2 <| bind_step e3 ?_
  rw [h1]
  rfl

/-- Nor do the steps between the two. -/
theorem sign_second (m : Mode) {M sk : Bytes} (h : sk.length = 32) {n1 : Bytes}
    (h1 : Model.Ed25519.hashParts m [(Spec.Sha2.sha512 sk).drop 32, M] = some n1) (l1 : n1.length = 64)
    (h2 : Model.Ed25519.hashParts m [encode (smul (leNat n1) B) ++ publicKey sk, M] = none) :
    Model.Ed25519.sign m M sk = none := by
  obtain ⟨az, a, e1, eaz, c1, c2, c3, e2, e3⟩ := secretScalar_spec m h
  have t1 : leNat ((toLE 32 (leNat n1 % L) ++ n1.drop 32).take 32) = leNat n1 % L := by rw [take_red, leNat_canon]
  obtain ⟨r, e4, r4⟩ := scalarmultBase_spec m (a := toLE 32 (leNat n1 % L) ++ n1.drop 32)
    (top_le (by rw [t1]; exact lt_trans (Nat.mod_lt _ L_pos) (by norm_num [L])))
  rw [t1, smul_mod_L] at r4
  have e5 := r4.encode m
  rw [coe_smulG] at e5
  have hpk : (publicKey sk).length = 32 := encode_length _
  have hR : (encode (smul (leNat n1) B)).length = 32 := encode_length _
  generalize hRe : encode (smul (leNat n1) B) = R at *
  have s1 : copyAt (zeros 64) 32 (publicKey sk) = zeros 32 ++ publicKey sk := by
    unfold copyAt
    rw [hpk]
    simp [zeros]
  have s2 : copyAt (zeros 32 ++ publicKey sk) 0 R = R ++ publicKey sk := by
    rw [copyAt_zero, hR, List.drop_left' (by simp)]
  have r1 := Sc.reduce_spec m n1
  rw [mod512 l1] at r1
  rw [← c2] at h1
  refine bind_step (a := ()) (by simp [assert, h]) <| bind_step e1 <| bind_step e2 <| bind_step e3 <| bind_step h1 <| bind_step r1 <|
    bind_step e4 <| bind_step e5 ?_
  simp only
  rw [s1, s2, h2]
  rfl

/-- C113. `sign` for messages of every length a slice can have. Without overflow checks it is RFC 8032 with the SHA-512 whose
length field wraps; with overflow checks it is RFC 8032 as long as the message and 64 bytes stay below `2^61`, and beyond
that it panics. -/
theorem C113_sign (m : Mode) (M sk : Bytes) (h : sk.length = 32) (hM : M.length < 2 ^ 64) :
    Model.Ed25519.sign m M sk = match m with
      | .release => some (signOver wrapped512 M sk)
      | .debug => if M.length + 64 < 2 ^ 61 then some (Spec.Ed25519.sign M sk) else none := by
  have hl : ((Spec.Sha2.sha512 sk).drop 32).length = 32 := by rw [List.length_drop, sha512_length]
  have hpk : (publicKey sk).length = 32 := encode_length _
  have hf1 : [(Spec.Sha2.sha512 sk).drop 32, M].flatten = (Spec.Sha2.sha512 sk).drop 32 ++ M := by simp
  cases m with
  | release =>
    have h1 := hash_release_eq [(Spec.Sha2.sha512 sk).drop 32, M]
    rw [hf1] at h1
    have h2 := hash_release_eq [encode (smul (leNat (wrapped512 ((Spec.Sha2.sha512 sk).drop 32 ++ M))) B) ++ publicKey sk, M]
    rw [sign_core .release h h1 (wrapped512_length _) h2 (wrapped512_length _)]
    simp only [signOver, List.flatten_cons, List.flatten_nil, List.append_nil]
  | debug =>
    by_cases hs : M.length + 64 < 2 ^ 61
    · simp only [if_pos hs]
      exact C42_sign_rfc8032 .debug M sk h hs
    · simp only [if_neg hs]
      by_cases hs1 : M.length + 32 < 2 ^ 61
      · have h1 := hash_spec .debug [(Spec.Sha2.sha512 sk).drop 32, M] (by rw [hf1, List.length_append, hl]; omega)
        refine sign_second .debug h h1 (sha512_length _) (hash_debug_none _ ?_ ?_)
        · intro p hp
          simp only [List.mem_cons, List.not_mem_nil, or_false] at hp
          rcases hp with rfl | rfl
          · rw [List.length_append, encode_length, hpk]; norm_num
          · exact hM
        · simp only [List.flatten_cons, List.flatten_nil, List.length_append, List.length_nil, hpk, encode_length]; omega
      · refine sign_first .debug h (hash_debug_none _ ?_ ?_)
        · intro p hp
          simp only [List.mem_cons, List.not_mem_nil, or_false] at hp
          rcases hp with rfl | rfl
          · rw [hl]; norm_num
          · exact hM
        · rw [hf1, List.length_append, hl]; omega

/-- C113. `verify` for messages of every length, without overflow checks: the equation of C44 over the SHA-512 whose length field
wraps. -/
theorem C113_verify_release (M sig pk : Bytes) (hpk : pk.length = 32) :
    ∃ b, verify .release M sig pk = some b ∧ (b = true ↔
      sig.length = 64 ∧ leNat (sig.drop 32) < 2 ^ 253 ∧ ∃ A, DecodesLax pk A ∧
        sig.take 32 = encode (add (smul (leNat (sig.drop 32)) B)
          (neg (smul (leNat (wrapped512 (sig.take 32 ++ pk ++ M)) % L) A)))) := by
  have hh := hash_release_eq [sig.take 32, pk, M]
  rw [show [sig.take 32, pk, M].flatten = sig.take 32 ++ pk ++ M by simp] at hh
  obtain ⟨b, e, hb⟩ := verify_core .release hpk hh (wrapped512_length _)
  refine ⟨b, e, hb.trans ?_⟩
  simp only [eq_comm]

/-- C113. `verify` with overflow checks of a message so long that it and 64 bytes reach `2^61`: whoever can choose signature and key
chooses between a rejection and a panic; nothing is accepted. -/
theorem C113_verify_debug (M sig pk : Bytes) (hpk : pk.length = 32) (hM : M.length < 2 ^ 64) (hl : 2 ^ 61 ≤ M.length + 64) :
    (WellFormed sig pk → verify .debug M sig pk = none) ∧ (¬ WellFormed sig pk → verify .debug M sig pk = some false) := by
  constructor
  · rintro ⟨hs1, hs2, A, hA⟩
    have hassert : assert (32 == pk.length) = some () := by simp [assert, hpk]
    have hs : ¬ (sig.length ≠ 64 ∨ (sig.getD 63 0 &&& 224) ≠ 0) := by
      rw [← top_bits hs1] at hs2
      tauto
    rcases fromBytesNegate_spec .debug hpk with ⟨A', g, e1, -, -⟩ | ⟨-, hno⟩
    · refine bind_step hassert ?_
      rw [if_neg hs]
      refine bind_step e1 ?_
      simp only
      rw [hash_debug_none [sig.take 32, pk, M]]
      · rfl
      · intro p hp
        simp only [List.mem_cons, List.not_mem_nil, or_false] at hp
        rcases hp with rfl | rfl | rfl
        · rw [List.length_take]
          exact lt_of_le_of_lt (min_le_left _ _) (by norm_num)
        · rw [hpk]; norm_num
        · exact hM
      · simp only [List.flatten_cons, List.flatten_nil, List.length_append, List.length_nil, List.length_take, hpk, hs1]
        omega
    · exact absurd hA (hno A)
  · intro h
    refine C46_verify_rejects .debug M sig pk hpk ?_
    unfold WellFormed at h
    by_contra hc
    push Not at hc
    exact h ⟨hc.1, hc.2.1, hc.2.2⟩

/-- C113. In particular when `verify` panics, for messages of every length. -/
theorem C113_verify_panics_iff (m : Mode) (M sig pk : Bytes) (hM : M.length < 2 ^ 64) :
    verify m M sig pk = none ↔ pk.length ≠ 32 ∨ (m = .debug ∧ 2 ^ 61 ≤ M.length + 64 ∧ WellFormed sig pk) := by
  by_cases hpk : pk.length = 32
  · by_cases hl : m = .release ∨ M.length + 64 < 2 ^ 61
    · rw [C46_verify_panics m M sig pk hl]
      constructor
      · intro h; exact Or.inl h
      · rintro (h | ⟨rfl, h, -⟩)
        · exact h
        · rcases hl with hl | hl
          · cases hl
          · omega
    · push Not at hl
      have hm : m = .debug := by cases m <;> simp_all
      subst hm
      obtain ⟨h1, h2⟩ := C113_verify_debug M sig pk hpk hM hl.2
      constructor
      · intro h
        by_cases hw : WellFormed sig pk
        · exact Or.inr ⟨rfl, hl.2, hw⟩
        · rw [h2 hw] at h; cases h
      · rintro (h | ⟨-, -, hw⟩)
        · exact absurd hpk h
        · exact h1 hw
  · refine iff_of_true ?_ (Or.inl hpk)
    unfold verify
    rw [show (32 == pk.length) = false from beq_eq_false_iff_ne.mpr (fun e => hpk e.symm)]
    rfl

/-- A message of `2^61` bytes cannot be signed with overflow checks; without them the signature is accepted, without them. -/
example (M : Bytes) (hM : M.length = 2 ^ 61) : Model.Ed25519.sign .debug M (zeros 32) = none ∧
    (∃ pk sig, genPk .release (zeros 32) = some pk ∧ Model.Ed25519.sign .release M (zeros 32) = some sig ∧
      verify .release M sig pk = some true ∧ verify .debug M sig pk = none ∧ verify .debug M sig.tail pk = some false) := by
  constructor
  · rw [C113_sign .debug M (zeros 32) (by decide) (by rw [hM]; norm_num)]
    exact if_neg (by rw [hM]; norm_num)
  · obtain ⟨pk, sig, h1, h2, h3⟩ := C43_sign_verifies .release M (zeros 32) (by decide) (Or.inl rfl)
    have hpk : pk.length = 32 := by
      rw [genPk_spec .release (by decide)] at h1
      cases h1
      exact encode_length _
    obtain ⟨b, e, hb⟩ := C113_verify_release M sig pk hpk
    rw [e] at h3
    cases h3
    obtain ⟨s1, s2, A, hA, -⟩ := hb.mp rfl
    obtain ⟨w1, w2⟩ := C113_verify_debug M sig pk hpk (by rw [hM]; norm_num) (by rw [hM]; norm_num)
    refine ⟨pk, sig, h1, h2, e, w1 ⟨s1, s2, A, hA⟩, ?_⟩
    exact C46_verify_rejects .debug M _ pk hpk (Or.inl (by rw [List.length_tail, s1]; decide))

/-- The boundary: `2^61 - 65` bytes can still be signed, `2^61 - 64` cannot. -/
example (M : Bytes) (b : U8) (hM : M.length = 2 ^ 61 - 65) : Model.Ed25519.sign .debug M (zeros 32) = some (Spec.Ed25519.sign M (zeros 32)) ∧
    Model.Ed25519.sign .debug (b :: M) (zeros 32) = none := by
  constructor
  · rw [C113_sign .debug M (zeros 32) (by decide) (by rw [hM]; norm_num)]
    exact if_pos (by rw [hM]; norm_num)
  · rw [C113_sign .debug (b :: M) (zeros 32) (by decide) (by rw [List.length_cons, hM]; norm_num)]
    exact if_neg (by rw [List.length_cons, hM]; norm_num)

end CryptoPure.Props.Ed25519
