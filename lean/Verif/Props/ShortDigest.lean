import Verif.Props.ShaIdeal

/-! # C151: shortened digests

Often only the first bytes of a digest are kept, as a fingerprint or an identifier. The code of src/sha2.rs with a uniformly random function in place of the SHA-2 compression function, as in C109. -/

namespace CryptoPure.Props.ShortDigest
open CryptoPure.Model CryptoPure.Props Spec.Sha2 Proofs Proofs.HmacSha
open Game hiding play forges

/-- The first `t` bytes of the digest that the code computes with the compression function `f`; `none` if the code panics. -/
def short (v : Variant) (f : Oct v.width → Bytes → Oct v.width) (m : Mode) (t : Nat) (M : Bytes) : Option Bytes :=
  (Model.Sha2.wrapper (v.codeWith f) m M).map (·.take t)

theorem short_eq (v : Variant) (f : Oct v.width → Bytes → Oct v.width) (m : Mode) {t : Nat} (ht : t ≤ v.size) (M : Bytes) (h : M.length < 2 ^ 61) :
    short v f m t M = some (digestF v.alg f v.codeIv t M) := by
  unfold short
  rw [wrapper_with v f m M h]
  unfold digestF digestWithF
  simp only [Option.map_some, List.take_take, Nat.min_eq_left ht]

/-- **Collisions of shortened digests.** An attacker who evaluates a uniformly random compression function at most `p` times finds two different messages of at most `N` bytes whose digests
agree in the first `t` bytes with a probability of at most `(p + 2 b) (p + 2 b + 1) / 256^t`, where `b` is the number of blocks of a message of `N` bytes. -/
theorem C151_collision (v : Variant) (m : Mode) (t : Nat) (ht : t ≤ v.size) (N : Nat) (hN : N < 2 ^ 61) (X : KdfGame.Prober v.width (Bytes × Bytes)) (p : Nat)
    (hX : X.Within v.block p) :
    prob (fun F : Fn v.width v.block => ∃ M M', X.run (fn F) = (M, M') ∧ M ≠ M' ∧ M.length ≤ N ∧ M'.length ≤ N ∧ short v (fn F) m t M = short v (fn F) m t M') ≤
    (p + 2 * v.blocks N) * (p + 2 * v.blocks N + 1) / 256 ^ t := by
  obtain ⟨hb, hl, hn, hw⟩ := variant_params v
  have hbl := variant_block v
  have key := ShaIdeal.collision_le v.alg hb v.codeIv (n := t) (N := N) (ht.trans hn) hw hl hN X p (by rw [hbl]; exact hX)
  rw [variant_cost] at key
  have e : ∀ B (_ : v.alg.blockBytes = B), prob (fun F : Fn v.width B => ∃ M M', X.run (fn F) = (M, M') ∧ M ≠ M' ∧ M.length ≤ N ∧ M'.length ≤ N ∧
      short v (fn F) m t M = short v (fn F) m t M') ≤ (p + 2 * v.blocks N) * (p + 2 * v.blocks N + 1) / 256 ^ t := by
    rintro _ rfl
    refine le_trans (prob_mono fun F hF => ?_) key
    obtain ⟨M, M', h0, h1, h2, h3, h4⟩ := hF
    rw [short_eq v _ m ht M (by omega), short_eq v _ m ht M' (by omega)] at h4
    simp only [h0]
    exact ⟨h1, h2, h3, Option.some.inj h4⟩
  exact e _ hbl

/-- **Preimages of shortened digests**, of any of several targets: at most `p + b` times the number of targets, divided by `256^t`. -/
theorem C151_preimage (v : Variant) (m : Mode) (t : Nat) (ht : t ≤ v.size) (N : Nat) (hN : N < 2 ^ 61) (ds : List Bytes) (X : KdfGame.Prober v.width Bytes) (p : Nat)
    (hX : X.Within v.block p) :
    prob (fun F : Fn v.width v.block => (X.run (fn F)).length ≤ N ∧ ∃ d ∈ ds, short v (fn F) m t (X.run (fn F)) = some d) ≤
    (p + v.blocks N) * ds.length / 256 ^ t := by
  obtain ⟨hb, hl, hn, hw⟩ := variant_params v
  have hbl := variant_block v
  have key := ShaIdeal.preimage_le v.alg hb v.codeIv (n := t) (N := N) (ht.trans hn) hw ds X p (by rw [hbl]; exact hX)
  rw [variant_cost] at key
  have e : ∀ B (_ : v.alg.blockBytes = B), prob (fun F : Fn v.width B => (X.run (fn F)).length ≤ N ∧
      ∃ d ∈ ds, short v (fn F) m t (X.run (fn F)) = some d) ≤ (p + v.blocks N) * ds.length / 256 ^ t := by
    rintro _ rfl
    refine le_trans (prob_mono fun F hF => ?_) key
    obtain ⟨h1, d, hd, h2⟩ := hF
    rw [short_eq v _ m ht _ (by omega)] at h2
    exact ⟨h1, (Option.some.inj h2).symm ▸ hd⟩
  exact e _ hbl

/-- **Second preimages of shortened digests**, of a message of `b'` blocks: at most `(p + b + b') (b' + 1) / 256^t`. -/
theorem C151_second_preimage (v : Variant) (m : Mode) (t : Nat) (ht : t ≤ v.size) (N : Nat) (hN : N < 2 ^ 61) (M : Bytes) (hM : M.length < 2 ^ 61)
    (X : KdfGame.Prober v.width Bytes) (p : Nat) (hX : X.Within v.block p) :
    prob (fun F : Fn v.width v.block => (X.run (fn F)).length ≤ N ∧ X.run (fn F) ≠ M ∧ short v (fn F) m t (X.run (fn F)) = short v (fn F) m t M) ≤
    (p + v.blocks N + v.blocks M.length) * (v.blocks M.length + 1) / 256 ^ t := by
  obtain ⟨hb, hl, hn, hw⟩ := variant_params v
  have hbl := variant_block v
  have key := ShaIdeal.second_le v.alg hb v.codeIv (n := t) (N := N) (ht.trans hn) hw hl hN M hM X p (by rw [hbl]; exact hX)
  rw [variant_cost, variant_cost] at key
  have e : ∀ B (_ : v.alg.blockBytes = B), prob (fun F : Fn v.width B => (X.run (fn F)).length ≤ N ∧ X.run (fn F) ≠ M ∧
      short v (fn F) m t (X.run (fn F)) = short v (fn F) m t M) ≤ (p + v.blocks N + v.blocks M.length) * (v.blocks M.length + 1) / 256 ^ t := by
    rintro _ rfl
    refine le_trans (prob_mono fun F hF => ?_) key
    obtain ⟨h1, h2, h3⟩ := hF
    rw [short_eq v _ m ht _ (by omega), short_eq v _ m ht M hM] at h3
    exact ⟨h1, h2, Option.some.inj h3⟩
  exact e _ hbl

/-! ## Concrete cases -/

/-- 20 bytes of SHA-256. -/
example (m : Mode) : prob (fun F : Fn 32 64 => ∃ M M', twoProbes.run (fn F) = (M, M') ∧ M ≠ M' ∧ M.length ≤ 32 ∧ M'.length ≤ 32 ∧
      short .sha256 (fn F) m 20 M = short .sha256 (fn F) m 20 M') ≤ 20 / 2 ^ 160 := by
  refine (C151_collision .sha256 m 20 (by decide) 32 (by decide) twoProbes 2 twoProbes_within).trans ?_
  have h2 : Variant.sha256.blocks 32 = 1 := by decide
  rw [h2]
  norm_num

/-- 8 bytes of SHA-384. -/
example (m : Mode) : prob (fun F : Fn 64 128 => (oneProbe.run (fn F)).length ≤ 64 ∧
      ∃ d ∈ [zeros 8, List.replicate 8 1], short .sha384 (fn F) m 8 (oneProbe.run (fn F)) = some d) ≤ 4 / 2 ^ 64 := by
  refine (C151_preimage .sha384 m 8 (by decide) 64 (by decide) [zeros 8, List.replicate 8 1] oneProbe 1 oneProbe_within).trans ?_
  have h2 : Variant.sha384.blocks 64 = 1 := by decide
  rw [h2]
  norm_num

example (m : Mode) : prob (fun F : Fn 64 128 => (oneProbe.run (fn F)).length ≤ 64 ∧ oneProbe.run (fn F) ≠ zeros 1000 ∧
      short .sha384 (fn F) m 8 (oneProbe.run (fn F)) = short .sha384 (fn F) m 8 (zeros 1000)) ≤ 90 / 2 ^ 64 := by
  refine (C151_second_preimage .sha384 m 8 (by decide) 64 (by decide) (zeros 1000) (by simp) oneProbe 1 oneProbe_within).trans ?_
  have h2 : Variant.sha384.blocks 64 = 1 := by decide
  have h3 : Variant.sha384.blocks (zeros 1000).length = 8 := by rw [zeros_length]; decide
  rw [h2, h3]
  norm_num

end CryptoPure.Props.ShortDigest
