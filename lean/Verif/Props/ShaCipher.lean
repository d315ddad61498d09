import Verif.Proofs.ShaCipher
import Verif.Props.ShaIdeal

/-! # C138: SHA-2 is a block cipher in Davies-Meyer mode, and is hard to attack when this cipher is random

The compression function of src/sha2.rs is not like a random function in every respect: what it adds to the chaining value is a permutation of it,
so each block has exactly one chaining value that it leaves as it is, and anyone can compute it. So C109, about a random compression function, does
not tell everything. Here only the 64 or 80 rounds are replaced, by a random permutation for each message block, and the attacker
(`CipherGame.Prober`) may also compute the inverse permutations. -/

namespace CryptoPure.Props
open CryptoPure.Model Spec.Sha2 Proofs Proofs.HmacSha CipherGame
open Game hiding play forges

/-- The permutations in the crate's SHA-2. -/
def Variant.cipher : (v : Variant) → Bytes → Equiv.Perm (Oct v.width)
  | .sha224 | .sha256 => ShaCipher.shacal Model.Sha2.P256
  | .sha384 | .sha512 => ShaCipher.shacal Model.Sha2.P512

attribute [local irreducible] ShaCipher.shacal Model.Sha2.process in
theorem compression_cipher (v : Variant) (H : Oct v.width) (b : Bytes) : v.compression H b = H.add (v.cipher b H) := by
  cases v
  · exact ShaCipher.process_eq Model.Sha2.P256 H b
  · exact ShaCipher.process_eq Model.Sha2.P256 H b
  · exact ShaCipher.process_eq Model.Sha2.P512 H b
  · exact ShaCipher.process_eq Model.Sha2.P512 H b

/-- **SHA-2 is a block cipher in Davies-Meyer mode**: for each block of a message there is a permutation of the chaining values, and absorbing the
block adds to the chaining value its image. -/
theorem C138_davies_meyer (v : Variant) : ∃ E : Cipher v.width v.block, ∀ H b, b.length = v.block → v.compression H b = daviesMeyer (enc E) H b := by
  refine ⟨fun b => v.cipher b.1, fun H b hb => ?_⟩
  unfold daviesMeyer enc
  rw [dif_pos hb]
  exact compression_cipher v H b

/-- **The crate's hash functions are among those that the bounds below are about**: with one of the ciphers they are the crate's hash functions. -/
theorem C138_code (v : Variant) : ∃ E : Cipher v.width v.block, ∀ (m : Mode) (M : Bytes), M.length < 2 ^ 61 →
    Model.Sha2.wrapper (v.codeWith (daviesMeyer (enc E))) m M = Model.Sha2.wrapper v.code m M := by
  obtain ⟨hb, -, -, -⟩ := variant_params v
  have hbl := variant_block v
  obtain ⟨E, hE⟩ := C138_davies_meyer v
  refine ⟨E, fun m M hM => ?_⟩
  rw [← C104_code, wrapper_with v _ m M hM, wrapper_with v _ m M hM]
  unfold digestF digestWithF hashBlocksF
  have h := chunks_mem_length (n := v.alg.blockBytes) (by omega) (ShaIdeal.whole_length v.alg hb M)
  unfold ShaIdeal.whole at h
  generalize chunks v.alg.blockBytes (M ++ padding v.alg M.length (8 * M.length)) = l at *
  have : ∀ H, l.foldl (daviesMeyer (enc E)) H = l.foldl v.compression H := by
    induction l with
    | nil => intro H; rfl
    | cons b l ih =>
      intro H
      rw [List.foldl_cons, List.foldl_cons, ih (fun c hc => h c (by simp [hc])), hE H b (by rw [h b (by simp), hbl])]
  rw [this]

/-- **Fixed points**: each block leaves exactly one chaining value as it is. (A random function has no fixed point with probability about `1/e`.) -/
theorem C138_fixed_point (v : Variant) (b : Bytes) : ∃! H : Oct v.width, v.compression H b = H := by
  have key : ∀ H : Oct v.width, v.compression H b = H ↔ H = (v.cipher b).symm (ShaCipher.sub H H) := by
    intro H
    rw [compression_cipher, Equiv.eq_symm_apply]
    constructor
    · intro h
      have := ShaCipher.sub_add H (v.cipher b H)
      rw [h] at this
      exact this.symm
    · intro h
      rw [h]
      exact ShaCipher.add_sub H H
  have zero : ∀ H H' : Oct v.width, ShaCipher.sub H H = ShaCipher.sub H' H' := by
    intro H H'
    simp [ShaCipher.sub]
  let z : Oct v.width := ⟨0, 0, 0, 0, 0, 0, 0, 0⟩
  refine ⟨(v.cipher b).symm (ShaCipher.sub z z), ?_, ?_⟩
  · exact (key _).mpr (congrArg _ (zero _ _))
  · intro H hH
    rw [(key H).mp hH, zero H z]

/-- **Collisions are hard to find when the cipher is random.** An attacker enciphers and deciphers at most `p` times and names two messages of at most
`N` bytes. The probability that they are different and have the same digest is at most about `(p + 2 b)²` divided by the number of digests, where `b`
is the number of blocks of a message of `N` bytes. -/
theorem C138_collision (v : Variant) (m : Mode) (N : Nat) (hN : N < 2 ^ 61) (X : Prober v.width (Bytes × Bytes)) (p : Nat)
    (hX : X.Within v.block p) :
    prob (fun E : Cipher v.width v.block => ∃ M M', X.run (enc E) (dec E) = (M, M') ∧ M ≠ M' ∧ M.length ≤ N ∧ M'.length ≤ N ∧
      Model.Sha2.wrapper (v.codeWith (daviesMeyer (enc E))) m M = Model.Sha2.wrapper (v.codeWith (daviesMeyer (enc E))) m M') ≤
    (p + 2 * v.blocks N) * (p + 2 * v.blocks N + 1) / 256 ^ v.size := by
  obtain ⟨hb, hl, hn, hw⟩ := variant_params v
  have hbl := variant_block v
  have key := ShaCipher.collision_le v.alg hb v.codeIv (n := v.size) (N := N) hn hw hl hN X p (by rw [hbl]; exact hX)
  rw [variant_cost] at key
  have e : ∀ B (_ : v.alg.blockBytes = B), prob (fun E : Cipher v.width B => ∃ M M', X.run (enc E) (dec E) = (M, M') ∧ M ≠ M' ∧
      M.length ≤ N ∧ M'.length ≤ N ∧
      Model.Sha2.wrapper (v.codeWith (daviesMeyer (enc E))) m M = Model.Sha2.wrapper (v.codeWith (daviesMeyer (enc E))) m M') ≤
      (p + 2 * v.blocks N) * (p + 2 * v.blocks N + 1) / 256 ^ v.size := by
    rintro _ rfl
    refine le_trans (prob_mono fun E hE => ?_) key
    obtain ⟨M, M', h0, h1, h2, h3, h4⟩ := hE
    rw [wrapper_with v _ m M (by omega), wrapper_with v _ m M' (by omega), ShaCipher.digestF_dm v.alg hb, ShaCipher.digestF_dm v.alg hb] at h4
    simp only [h0]
    exact ⟨h1, h2, h3, Option.some.inj h4⟩
  exact e _ hbl

/-- **Preimages are hard to find**, even of any of several digests. -/
theorem C138_preimage (v : Variant) (m : Mode) (N : Nat) (hN : N < 2 ^ 61) (ds : List Bytes) (X : Prober v.width Bytes) (p : Nat)
    (hX : X.Within v.block p) :
    prob (fun E : Cipher v.width v.block => (X.run (enc E) (dec E)).length ≤ N ∧
      ∃ d ∈ ds, Model.Sha2.wrapper (v.codeWith (daviesMeyer (enc E))) m (X.run (enc E) (dec E)) = some d) ≤
    2 * (p + v.blocks N) * ds.length / 256 ^ v.size := by
  obtain ⟨hb, hl, hn, hw⟩ := variant_params v
  have hbl := variant_block v
  have key := ShaCipher.preimage_le v.alg hb v.codeIv (n := v.size) (N := N) hn hw ds X p (by rw [hbl]; exact hX)
  rw [variant_cost] at key
  have e : ∀ B (_ : v.alg.blockBytes = B), prob (fun E : Cipher v.width B => (X.run (enc E) (dec E)).length ≤ N ∧
      ∃ d ∈ ds, Model.Sha2.wrapper (v.codeWith (daviesMeyer (enc E))) m (X.run (enc E) (dec E)) = some d) ≤
      2 * (p + v.blocks N) * ds.length / 256 ^ v.size := by
    rintro _ rfl
    refine le_trans (prob_mono fun E hE => ?_) key
    obtain ⟨h1, d, hd, h2⟩ := hE
    rw [wrapper_with v _ m _ (by omega), ShaCipher.digestF_dm v.alg hb] at h2
    exact ⟨h1, (Option.some.inj h2).symm ▸ hd⟩
  exact e _ hbl

/-- **Second preimages are hard to find**: of a message `M` that the attacker knows, a different message with the same digest. -/
theorem C138_second_preimage (v : Variant) (m : Mode) (N : Nat) (hN : N < 2 ^ 61) (M : Bytes) (hM : M.length < 2 ^ 61)
    (X : Prober v.width Bytes) (p : Nat) (hX : X.Within v.block p) :
    prob (fun E : Cipher v.width v.block => (X.run (enc E) (dec E)).length ≤ N ∧ X.run (enc E) (dec E) ≠ M ∧
      Model.Sha2.wrapper (v.codeWith (daviesMeyer (enc E))) m (X.run (enc E) (dec E)) =
        Model.Sha2.wrapper (v.codeWith (daviesMeyer (enc E))) m M) ≤
    2 * (p + v.blocks N + v.blocks M.length) * (v.blocks M.length + 1) / 256 ^ v.size := by
  obtain ⟨hb, hl, hn, hw⟩ := variant_params v
  have hbl := variant_block v
  have key := ShaCipher.second_le v.alg hb v.codeIv (n := v.size) (N := N) hn hw hl hN M hM X p (by rw [hbl]; exact hX)
  rw [variant_cost, variant_cost] at key
  have e : ∀ B (_ : v.alg.blockBytes = B), prob (fun E : Cipher v.width B => (X.run (enc E) (dec E)).length ≤ N ∧ X.run (enc E) (dec E) ≠ M ∧
      Model.Sha2.wrapper (v.codeWith (daviesMeyer (enc E))) m (X.run (enc E) (dec E)) =
        Model.Sha2.wrapper (v.codeWith (daviesMeyer (enc E))) m M) ≤
      2 * (p + v.blocks N + v.blocks M.length) * (v.blocks M.length + 1) / 256 ^ v.size := by
    rintro _ rfl
    refine le_trans (prob_mono fun E hE => ?_) key
    obtain ⟨h1, h2, h3⟩ := hE
    rw [wrapper_with v _ m _ (by omega), wrapper_with v _ m M hM, ShaCipher.digestF_dm v.alg hb, ShaCipher.digestF_dm v.alg hb] at h3
    exact ⟨h1, h2, Option.some.inj h3⟩
  exact e _ hbl

/-! ## Concrete cases -/

/-- The attacker looks for a fixed point of a block of zeros: it deciphers zero, and names two messages made of the result. -/
def fixProbe : Prober 32 (Bytes × Bytes) :=
  .decipher (zeros 64) ⟨0, 0, 0, 0, 0, 0, 0, 0⟩ fun x => .encipher (zeros 64) x fun y => .stop (bytesOf x, bytesOf y)

theorem fixProbe_within : fixProbe.Within Variant.sha256.block 2 := ⟨rfl, 1, rfl, fun _ => ⟨rfl, 0, rfl, fun _ => trivial⟩⟩

example (m : Mode) : prob (fun E : Cipher 32 64 => ∃ M M', fixProbe.run (enc E) (dec E) = (M, M') ∧ M ≠ M' ∧ M.length ≤ 32 ∧ M'.length ≤ 32 ∧
      Model.Sha2.wrapper (Variant.sha256.codeWith (daviesMeyer (enc E))) m M =
        Model.Sha2.wrapper (Variant.sha256.codeWith (daviesMeyer (enc E))) m M') ≤ 20 / 2 ^ 256 := by
  refine (C138_collision .sha256 m 32 (by decide) fixProbe 2 fixProbe_within).trans ?_
  have h1 : Variant.sha256.size = 32 := rfl
  have h2 : Variant.sha256.blocks 32 = 1 := by decide
  rw [h1, h2]
  norm_num

/-- It does find a fixed point: what it deciphers is enciphered to zero again, for every cipher. -/
example (E : Cipher 32 64) : (fixProbe.run (enc E) (dec E)).2 = zeros 32 := by
  have : (fixProbe.run (enc E) (dec E)).2 = bytesOf (enc E (zeros 64) (dec E (zeros 64) ⟨0, 0, 0, 0, 0, 0, 0, 0⟩)) := rfl
  rw [this]
  unfold enc dec
  rw [dif_pos (by simp), dif_pos (by simp), Equiv.apply_symm_apply]
  decide

/-- The attacker deciphers once and names a message. -/
def backProbe : Prober 64 Bytes := .decipher (zeros 128) Model.Sha2.iv384 fun x => .stop (bytesOf x)

theorem backProbe_within : backProbe.Within Variant.sha384.block 1 := ⟨rfl, 0, rfl, fun _ => trivial⟩

example (m : Mode) : prob (fun E : Cipher 64 128 => (backProbe.run (enc E) (dec E)).length ≤ 64 ∧
      ∃ d ∈ [zeros 48, List.replicate 48 1],
        Model.Sha2.wrapper (Variant.sha384.codeWith (daviesMeyer (enc E))) m (backProbe.run (enc E) (dec E)) = some d) ≤ 8 / 256 ^ 48 := by
  refine (C138_preimage .sha384 m 64 (by decide) [zeros 48, List.replicate 48 1] backProbe 1 backProbe_within).trans ?_
  have h1 : Variant.sha384.size = 48 := rfl
  have h2 : Variant.sha384.blocks 64 = 1 := by decide
  rw [h1, h2]
  norm_num

example (m : Mode) : prob (fun E : Cipher 64 128 => (backProbe.run (enc E) (dec E)).length ≤ 64 ∧ backProbe.run (enc E) (dec E) ≠ zeros 1000 ∧
      Model.Sha2.wrapper (Variant.sha384.codeWith (daviesMeyer (enc E))) m (backProbe.run (enc E) (dec E)) =
        Model.Sha2.wrapper (Variant.sha384.codeWith (daviesMeyer (enc E))) m (zeros 1000)) ≤ 180 / 256 ^ 48 := by
  refine (C138_second_preimage .sha384 m 64 (by decide) (zeros 1000) (by simp) backProbe 1 backProbe_within).trans ?_
  have h1 : Variant.sha384.size = 48 := rfl
  have h2 : Variant.sha384.blocks 64 = 1 := by decide
  have h3 : Variant.sha384.blocks (zeros 1000).length = 8 := by rw [zeros_length]; decide
  rw [h1, h2, h3]
  norm_num

end CryptoPure.Props
