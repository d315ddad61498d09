import Verif.Proofs.ShaIdeal
import Verif.Props.HkdfIdeal

/-! # C109: collisions and preimages of SHA-2 when the compression function is random

The code of src/sha2.rs with a uniformly random function in place of the SHA-2 compression function. The attacker (`KdfGame.Prober`) may evaluate
this function at most `p` times, each time on an argument that may depend on the earlier values, and then names messages. -/

namespace CryptoPure.Props
open CryptoPure.Model Spec.Sha2 Proofs Proofs.HmacSha
open Game hiding play forges

/-- The initial value in the code, src/sha2.rs:150-204. -/
def Variant.codeIv : (v : Variant) → Oct v.width
  | .sha224 => Model.Sha2.iv224
  | .sha256 => Model.Sha2.iv256
  | .sha384 => Model.Sha2.iv384
  | .sha512 => Model.Sha2.iv512

theorem wrapper_with (v : Variant) (f : Oct v.width → Bytes → Oct v.width) (m : Mode) (M : Bytes) (h : M.length < 2 ^ 61) :
    Model.Sha2.wrapper (v.codeWith f) m M = some (digestF v.alg f v.codeIv v.size M) := by
  have key : ∀ (H : Model.Sha2.HashFunction) (hash : Bytes → Bytes) (R : Bytes → H.State → Prop), Lawful H hash R →
      Model.Sha2.wrapper H m M = some (hash M) := by
    intro H hash R L
    obtain ⟨s, h1, h2⟩ := L.update m [] _ M L.init (by simpa using h)
    unfold Model.Sha2.wrapper
    rw [h1]
    exact L.finish m M s _ h2 h (by simp)
  cases v
  · exact key _ _ _ (Proofs.ShaWith.lawful_impl (f := f) Sha2.matches256 Model.Sha2.iv224 28 (by decide) (by decide) (by decide) (by decide) (by decide))
  · exact key _ _ _ (Proofs.ShaWith.lawful_impl (f := f) Sha2.matches256 Model.Sha2.iv256 32 (by decide) (by decide) (by decide) (by decide) (by decide))
  · exact key _ _ _ (Proofs.ShaWith.lawful_impl (f := f) Sha2.matches512 Model.Sha2.iv384 48 (by decide) (by decide) (by decide) (by decide) (by decide))
  · exact key _ _ _ (Proofs.ShaWith.lawful_impl (f := f) Sha2.matches512 Model.Sha2.iv512 64 (by decide) (by decide) (by decide) (by decide) (by decide))

theorem variant_params (v : Variant) : v.alg.lenBytes + 1 ≤ v.alg.blockBytes ∧ 8 ≤ v.alg.lenBytes ∧ v.size ≤ 8 * (v.width / 8) ∧ v.width % 8 = 0 := by
  cases v <;> decide

theorem variant_block (v : Variant) : v.alg.blockBytes = v.block := by cases v <;> rfl

theorem variant_cost (v : Variant) (l : Nat) : cost v.alg l = v.blocks l := by cases v <;> rfl

/-- **Collisions are hard to find when the compression function is random.** An attacker evaluates a uniformly random compression function at most
`p` times and names two messages of at most `N` bytes. The probability that they are different and have the same digest is at most about
`(p + 2 b)²` divided by the number of digests, where `b` is the number of blocks of a message of `N` bytes. -/
theorem C109_collision (v : Variant) (m : Mode) (N : Nat) (hN : N < 2 ^ 61) (X : KdfGame.Prober v.width (Bytes × Bytes)) (p : Nat)
    (hX : X.Within v.block p) :
    prob (fun F : Fn v.width v.block => ∃ M M', X.run (fn F) = (M, M') ∧ M ≠ M' ∧ M.length ≤ N ∧ M'.length ≤ N ∧
      Model.Sha2.wrapper (v.codeWith (fn F)) m M = Model.Sha2.wrapper (v.codeWith (fn F)) m M') ≤
    (p + 2 * v.blocks N) * (p + 2 * v.blocks N + 1) / 256 ^ v.size := by
  obtain ⟨hb, hl, hn, hw⟩ := variant_params v
  have hbl := variant_block v
  have key := ShaIdeal.collision_le v.alg hb v.codeIv (n := v.size) (N := N) hn hw hl hN X p (by rw [hbl]; exact hX)
  rw [variant_cost] at key
  have e : ∀ B (_ : v.alg.blockBytes = B), prob (fun F : Fn v.width B => ∃ M M', X.run (fn F) = (M, M') ∧ M ≠ M' ∧ M.length ≤ N ∧ M'.length ≤ N ∧
      Model.Sha2.wrapper (v.codeWith (fn F)) m M = Model.Sha2.wrapper (v.codeWith (fn F)) m M') ≤
      (p + 2 * v.blocks N) * (p + 2 * v.blocks N + 1) / 256 ^ v.size := by
    rintro _ rfl
    refine le_trans (prob_mono fun F hF => ?_) key
    obtain ⟨M, M', h0, h1, h2, h3, h4⟩ := hF
    rw [wrapper_with v _ m M (by omega), wrapper_with v _ m M' (by omega)] at h4
    simp only [h0]
    exact ⟨h1, h2, h3, Option.some.inj h4⟩
  exact e _ hbl

/-- **Preimages are hard to find**, even of any of several digests: the bound is `p + b` times the number of targets, divided by the number of digests. -/
theorem C109_preimage (v : Variant) (m : Mode) (N : Nat) (hN : N < 2 ^ 61) (ds : List Bytes) (X : KdfGame.Prober v.width Bytes) (p : Nat)
    (hX : X.Within v.block p) :
    prob (fun F : Fn v.width v.block => (X.run (fn F)).length ≤ N ∧
      ∃ d ∈ ds, Model.Sha2.wrapper (v.codeWith (fn F)) m (X.run (fn F)) = some d) ≤
    (p + v.blocks N) * ds.length / 256 ^ v.size := by
  obtain ⟨hb, hl, hn, hw⟩ := variant_params v
  have hbl := variant_block v
  have key := ShaIdeal.preimage_le v.alg hb v.codeIv (n := v.size) (N := N) hn hw ds X p (by rw [hbl]; exact hX)
  rw [variant_cost] at key
  have e : ∀ B (_ : v.alg.blockBytes = B), prob (fun F : Fn v.width B => (X.run (fn F)).length ≤ N ∧
      ∃ d ∈ ds, Model.Sha2.wrapper (v.codeWith (fn F)) m (X.run (fn F)) = some d) ≤ (p + v.blocks N) * ds.length / 256 ^ v.size := by
    rintro _ rfl
    refine le_trans (prob_mono fun F hF => ?_) key
    obtain ⟨h1, d, hd, h2⟩ := hF
    rw [wrapper_with v _ m _ (by omega)] at h2
    exact ⟨h1, (Option.some.inj h2).symm ▸ hd⟩
  exact e _ hbl

/-- **Second preimages are hard to find**: of a message `M` of `b'` blocks that the attacker knows, a different message with the same digest. The bound
grows with the length of `M`, as it must: every chaining value of a long message is a target. -/
theorem C109_second_preimage (v : Variant) (m : Mode) (N : Nat) (hN : N < 2 ^ 61) (M : Bytes) (hM : M.length < 2 ^ 61)
    (X : KdfGame.Prober v.width Bytes) (p : Nat) (hX : X.Within v.block p) :
    prob (fun F : Fn v.width v.block => (X.run (fn F)).length ≤ N ∧ X.run (fn F) ≠ M ∧
      Model.Sha2.wrapper (v.codeWith (fn F)) m (X.run (fn F)) = Model.Sha2.wrapper (v.codeWith (fn F)) m M) ≤
    (p + v.blocks N + v.blocks M.length) * (v.blocks M.length + 1) / 256 ^ v.size := by
  obtain ⟨hb, hl, hn, hw⟩ := variant_params v
  have hbl := variant_block v
  have key := ShaIdeal.second_le v.alg hb v.codeIv (n := v.size) (N := N) hn hw hl hN M hM X p (by rw [hbl]; exact hX)
  rw [variant_cost, variant_cost] at key
  have e : ∀ B (_ : v.alg.blockBytes = B), prob (fun F : Fn v.width B => (X.run (fn F)).length ≤ N ∧ X.run (fn F) ≠ M ∧
      Model.Sha2.wrapper (v.codeWith (fn F)) m (X.run (fn F)) = Model.Sha2.wrapper (v.codeWith (fn F)) m M) ≤
      (p + v.blocks N + v.blocks M.length) * (v.blocks M.length + 1) / 256 ^ v.size := by
    rintro _ rfl
    refine le_trans (prob_mono fun F hF => ?_) key
    obtain ⟨h1, h2, h3⟩ := hF
    rw [wrapper_with v _ m _ (by omega), wrapper_with v _ m M hM] at h3
    exact ⟨h1, h2, Option.some.inj h3⟩
  exact e _ hbl

/-! ## Concrete cases -/

/-- The attacker evaluates the compression function on two blocks and names messages made of the results. -/
def twoProbes : KdfGame.Prober 32 (Bytes × Bytes) :=
  .compress Model.Sha2.iv256 (zeros 64) fun y => .compress y (zeros 64) fun z => .stop (bytesOf y, bytesOf z)

theorem twoProbes_within : twoProbes.Within Variant.sha256.block 2 := ⟨rfl, 1, rfl, fun _ => ⟨rfl, 0, rfl, fun _ => trivial⟩⟩

example (m : Mode) : prob (fun F : Fn 32 64 => ∃ M M', twoProbes.run (fn F) = (M, M') ∧ M ≠ M' ∧ M.length ≤ 32 ∧ M'.length ≤ 32 ∧
      Model.Sha2.wrapper (Variant.sha256.codeWith (fn F)) m M = Model.Sha2.wrapper (Variant.sha256.codeWith (fn F)) m M') ≤ 20 / 2 ^ 256 := by
  refine (C109_collision .sha256 m 32 (by decide) twoProbes 2 twoProbes_within).trans ?_
  have h1 : Variant.sha256.size = 32 := rfl
  have h2 : Variant.sha256.blocks 32 = 1 := by decide
  rw [h1, h2]
  norm_num

/-- The attacker looks at one value and names a message. -/
def oneProbe : KdfGame.Prober 64 Bytes := .compress Model.Sha2.iv384 (zeros 128) fun y => .stop (bytesOf y)

theorem oneProbe_within : oneProbe.Within Variant.sha384.block 1 := ⟨rfl, 0, rfl, fun _ => trivial⟩

example (m : Mode) : prob (fun F : Fn 64 128 => (oneProbe.run (fn F)).length ≤ 64 ∧
      ∃ d ∈ [zeros 48, List.replicate 48 1], Model.Sha2.wrapper (Variant.sha384.codeWith (fn F)) m (oneProbe.run (fn F)) = some d) ≤ 4 / 256 ^ 48 := by
  refine (C109_preimage .sha384 m 64 (by decide) [zeros 48, List.replicate 48 1] oneProbe 1 oneProbe_within).trans ?_
  have h1 : Variant.sha384.size = 48 := rfl
  have h2 : Variant.sha384.blocks 64 = 1 := by decide
  rw [h1, h2]
  norm_num

example (m : Mode) : prob (fun F : Fn 64 128 => (oneProbe.run (fn F)).length ≤ 64 ∧ oneProbe.run (fn F) ≠ zeros 1000 ∧
      Model.Sha2.wrapper (Variant.sha384.codeWith (fn F)) m (oneProbe.run (fn F)) = Model.Sha2.wrapper (Variant.sha384.codeWith (fn F)) m (zeros 1000)) ≤
    90 / 256 ^ 48 := by
  refine (C109_second_preimage .sha384 m 64 (by decide) (zeros 1000) (by simp) oneProbe 1 oneProbe_within).trans ?_
  have h1 : Variant.sha384.size = 48 := rfl
  have h2 : Variant.sha384.blocks 64 = 1 := by decide
  have h3 : Variant.sha384.blocks (zeros 1000).length = 8 := by rw [zeros_length]; decide
  rw [h1, h2, h3]
  norm_num

end CryptoPure.Props
