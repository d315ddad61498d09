import Verif.Proofs.Aes

/-! # Properties C14–C17: AES -/

namespace CryptoPure.Props
open CryptoPure.Model CryptoPure.Model.Aes

/-- The three public ciphers. -/
inductive AesKind where
  | aes128 | aes192 | aes256
deriving DecidableEq, Repr

/-- The modelled implementation. -/
def AesKind.code : AesKind → BlockCipher
  | .aes128 => Aes128
  | .aes192 => Aes192
  | .aes256 => Aes256

/-- Key length in 32-bit words (FIPS 197 §5). -/
def AesKind.Nk : AesKind → Nat
  | .aes128 => 4
  | .aes192 => 6
  | .aes256 => 8

attribute [local irreducible] permute keyExpansion Spec.Aes.cipher toBE

/-! ## C14 -/

/-- The code's S-box is the FIPS 197 S-box on every byte. -/
theorem C14_sbox (x : U8) : sBox x = Spec.Aes.sbox x := Proofs.Aes.sBox_eq x

/-- The inversion in the specification really is inversion in GF(2^8). -/
theorem C14_inverse (x : U8) : (x ≠ 0 → Spec.Aes.gmul x (Spec.Aes.ginv x) = 1) ∧ Spec.Aes.ginv 0 = 0 :=
  ⟨Proofs.Aes.ginv_spec x, by decide +kernel⟩

example : sBox 0x53 = 0xed := by decide +kernel

/-! ## C17 -/

/-- `new` panics exactly when the key has the wrong length. -/
theorem C17_key_length (k : AesKind) (key : Bytes) : k.code.new key = none ↔ key.length ≠ 4 * k.Nk := by
  cases k
  · obtain ⟨h1, h2⟩ := Proofs.Aes.keyExpansion_spec 4 (by decide) key
    refine ⟨fun h e => ?_, h1⟩
    obtain ⟨s, hs, _⟩ := h2 e
    exact absurd (h.symm.trans hs) (by simp)
  · obtain ⟨h1, h2⟩ := Proofs.Aes.keyExpansion_spec 6 (by decide) key
    refine ⟨fun h e => ?_, h1⟩
    obtain ⟨s, hs, _⟩ := h2 e
    exact absurd (h.symm.trans hs) (by simp)
  · obtain ⟨h1, h2⟩ := Proofs.Aes.keyExpansion_spec 8 (by decide) key
    refine ⟨fun h e => ?_, h1⟩
    obtain ⟨s, hs, _⟩ := h2 e
    exact absurd (h.symm.trans hs) (by simp)

theorem new_spec (k : AesKind) (key : Bytes) (st : k.code.State) (h : k.code.new key = some st) :
    key.length = 4 * k.Nk := by
  by_contra hne
  rw [(C17_key_length k key).mpr hne] at h
  cases h

theorem sched_spec (nk : Nat) (hnk : 0 < nk) (key : Bytes) (st : Bytes)
    (h : keyExpansion nk key = some st) : st.length = 16 * (nk + 6 + 1) ∧
      ∀ i < 4 * (nk + 6 + 1), Proofs.Aes.wordAt st i = Spec.Aes.keyWord nk key i := by
  obtain ⟨h1, h2⟩ := Proofs.Aes.keyExpansion_spec nk hnk key
  by_cases hl : key.length = 4 * nk
  · obtain ⟨s, hs, h3, h4⟩ := h2 hl
    rw [h] at hs
    obtain rfl := Option.some.inj hs
    exact ⟨h3, h4⟩
  · rw [h1 hl] at h; cases h

/-! ## C15 -/

/-- `Aes*::new(key).permute(block)` is the FIPS 197 cipher. -/
theorem C15_fips197 (k : AesKind) (key block : Bytes) (hb : block.length = 16) (st : k.code.State)
    (h : k.code.new key = some st) : k.code.permute st block = Spec.Aes.aes k.Nk key block := by
  cases k
  · obtain ⟨h1, h2⟩ := sched_spec 4 (by decide) key st h
    exact Proofs.Aes.permute_spec 4 st _ block h1 h2 hb
  · obtain ⟨h1, h2⟩ := sched_spec 6 (by decide) key st h
    exact Proofs.Aes.permute_spec 6 st _ block h1 h2 hb
  · obtain ⟨h1, h2⟩ := sched_spec 8 (by decide) key st h
    exact Proofs.Aes.permute_spec 8 st _ block h1 h2 hb

set_option maxRecDepth 100000 in
/-- FIPS 197 appendix C.1, through the theorem. -/
example : Spec.Aes.aes 4 (toBE 16 0x000102030405060708090a0b0c0d0e0f) (toBE 16 0x00112233445566778899aabbccddeeff)
    = toBE 16 0x69c4e0d86a7b0430d8cdb78070b4c55a := by
  have e : (keyExpansion 4 (toBE 16 0x000102030405060708090a0b0c0d0e0f)).map
      (fun st => permute 4 st (toBE 16 0x00112233445566778899aabbccddeeff))
      = some (toBE 16 0x69c4e0d86a7b0430d8cdb78070b4c55a) := by decide +kernel
  obtain ⟨st, h1, h2⟩ := Option.map_eq_some_iff.mp e
  exact (C15_fips197 .aes128 _ (toBE 16 0x00112233445566778899aabbccddeeff) (by simp) st h1).symm.trans h2

/-! ## C16 -/

/-- For every key, `permute` is a bijection on the 16-byte blocks. -/
theorem C16_permutation (k : AesKind) (key : Bytes) (st : k.code.State) (h : k.code.new key = some st)
    (y : Bytes) (hy : y.length = 16) : ∃! x, x.length = 16 ∧ k.code.permute st x = y := by
  have main : ∀ nk, 0 < nk → ∀ s : Bytes, keyExpansion nk key = some s →
      ∃! x : Bytes, x.length = 16 ∧ permute nk s x = y := by
    intro nk hnk s hs
    obtain ⟨h1, -⟩ := sched_spec nk hnk key s hs
    obtain ⟨x, hx, e⟩ := Proofs.Aes.permute_bij nk s h1 y hy
    refine ⟨x, ⟨hx, e⟩, ?_⟩
    rintro x' ⟨hx', e'⟩
    exact (Proofs.Aes.permute_inj nk s x' x h1 hx' hx).2 (e'.trans e.symm)
  cases k
  · exact main 4 (by decide) st h
  · exact main 6 (by decide) st h
  · exact main 8 (by decide) st h

/-- `permute` maps 16-byte blocks to 16-byte blocks. -/
theorem C16_length (k : AesKind) (key : Bytes) (st : k.code.State) (h : k.code.new key = some st)
    (x : Bytes) (hx : x.length = 16) : (k.code.permute st x).length = 16 := by
  rw [C15_fips197 k key x hx st h, Spec.Aes.aes, Spec.Aes.cipher]
  rfl

/-- The hypothesis `new key = some st` is met by every key of the right length. -/
example (k : AesKind) : ∃ st, k.code.new (zeros (4 * k.Nk)) = some st :=
  Option.ne_none_iff_exists'.mp (fun h => (C17_key_length k _).mp h (by simp))

/-! ## Further concrete cases -/

/-- C14: the inverse of 0x53 is 0xca. -/
example : Spec.Aes.gmul 0x53 (Spec.Aes.ginv 0x53) = 1 ∧ sBox 0x53 = Spec.Aes.sbox 0x53 :=
  ⟨(C14_inverse 0x53).1 (by decide), C14_sbox _⟩

/-- C16: one block, AES-192. -/
example : ∃ st, Aes192.new (zeros 24) = some st ∧ (∃! x, x.length = 16 ∧ Aes192.permute st x = 1 :: zeros 15) ∧
    (Aes192.permute st (2 :: zeros 15)).length = 16 := by
  obtain ⟨st, h⟩ := Option.ne_none_iff_exists'.mp (fun h => (C17_key_length .aes192 (zeros 24)).mp h (by simp [AesKind.Nk]))
  exact ⟨st, h, C16_permutation .aes192 _ st h _ (by simp), C16_length .aes192 _ st h _ (by simp)⟩

/-- C17: a key of 17 bytes. -/
example : Aes128.new (zeros 17) = none := (C17_key_length .aes128 _).mpr (by simp [AesKind.Nk])

end CryptoPure.Props
