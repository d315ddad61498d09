import Verif.Proofs.ExtendSha
import Verif.Props.ShaIdeal
import Verif.Props.LengthExtension

/-! # C146: SHA-224 and SHA-384 digests cannot be extended when the compression function is random

C94 says that from a SHA-256 or SHA-512 digest of a text that one does not know one gets the digests of longer texts. A SHA-224 or SHA-384 digest shows only a part of the
chaining value. As in C109, a uniformly random function takes the place of the compression function in the code of src/sha2.rs. -/

namespace CryptoPure.Props
open CryptoPure.Model Spec.Sha2 Proofs Proofs.HmacSha Proofs.HmacIdeal Proofs.ShaIdeal Proofs.ExtendIdeal
open Game hiding play forges

/-- How many bytes of the last chaining value a digest does not show: 4 for SHA-224, 16 for SHA-384, none for SHA-256 and SHA-512. -/
def Variant.hiddenBytes : Variant → Nat
  | .sha224 => 4
  | .sha256 => 0
  | .sha384 => 16
  | .sha512 => 0

/-- Bytes of a chaining value. -/
def Variant.stateBytes (v : Variant) : Nat := v.size + v.hiddenBytes

theorem variant_state (v : Variant) : 8 * (v.width / 8) = v.stateBytes ∧ 8 * (v.width / 8) - v.size = v.hiddenBytes := by cases v <;> decide

/-- The attacker `X` gets the digest of `secret`. It names a suffix of at most `N` bytes and a digest. This is the digest of the secret, its padding and the suffix. -/
def Extends (v : Variant) (m : Mode) (f : Oct v.width → Bytes → Oct v.width) (X : Bytes → KdfGame.Prober v.width (Bytes × Bytes)) (N : Nat) (secret : Bytes) : Prop :=
  ∃ d x d', Model.Sha2.wrapper (v.codeWith f) m secret = some d ∧ (X d).run f = (x, d') ∧ x.length ≤ N ∧
    Model.Sha2.wrapper (v.codeWith f) m (secret ++ v.pad secret.length ++ x) = some d'

/-- **Nobody extends the digest of a secret.** The secret has any distribution over strings of `l` bytes in which no string has a probability above `δ`. The attacker gets its
digest and evaluates the random compression function at most `p` times. The chance that it names the digest of an extension is at most `p` divided by the number of values
of the hidden bytes, plus terms that are small for all four hash functions. (For SHA-256 and SHA-512 nothing is hidden and the bound says nothing, see `C146_extends`.) -/
theorem C146_no_extension {K : Type} [Finite K] [Nonempty K] (v : Variant) (m : Mode) (secret : K → Bytes) (l N : Nat) (hs : ∀ k, (secret k).length = l)
    (hN : l + (v.pad l).length + N < 2 ^ 61) (δ : ℚ) (hδ : ∀ s, prob (fun k => secret k = s) ≤ δ)
    (X : Bytes → KdfGame.Prober v.width (Bytes × Bytes)) (p : Nat) (hX : ∀ d, d.length = v.size → (X d).Within v.block p) :
    prob (fun q : K × Fn v.width v.block => Extends v m (fn q.2) X N (secret q.1)) ≤
      p / 256 ^ v.hiddenBytes + v.blocks N * (v.blocks N + p + 1) / 256 ^ v.size +
      ((p + v.blocks N) * δ + ((p + v.blocks N) * (p + v.blocks N + 1) + v.blocks l * (v.blocks l + 2 * (p + v.blocks N) + 1)) / 256 ^ v.stateBytes) := by
  obtain ⟨hb, hl, hn, hw⟩ := variant_params v
  have hbl := variant_block v
  obtain ⟨e1, e2⟩ := variant_state v
  have key := extend_le v.alg hb v.codeIv (n := v.size) (N := N) hn hw hl secret l hs (by omega) δ hδ X p (by rw [hbl]; exact hX) (l + (v.pad l).length)
  rw [variant_cost, variant_cost, e1, show v.stateBytes - v.size = v.hiddenBytes by unfold Variant.stateBytes; omega] at key
  have e : ∀ B (_ : v.alg.blockBytes = B), prob (fun q : K × Fn v.width B => Extends v m (fn q.2) X N (secret q.1)) ≤
      p / 256 ^ v.hiddenBytes + v.blocks N * (v.blocks N + p + 1) / 256 ^ v.size +
      ((p + v.blocks N) * δ + ((p + v.blocks N) * (p + v.blocks N + 1) + v.blocks l * (v.blocks l + 2 * (p + v.blocks N) + 1)) / 256 ^ v.stateBytes) := by
    rintro _ rfl
    refine le_trans (prob_mono fun q hq => ?_) key
    obtain ⟨k, F⟩ := q
    obtain ⟨d, x, d', h1, h2, h3, h4⟩ := hq
    simp only at h1 h2 h3 h4 ⊢
    rw [wrapper_with v _ m _ (by rw [hs]; omega), digestF_pieces v.alg hb F _ _ hn] at h1
    have hlen : (secret k ++ v.pad (secret k).length ++ x).length = l + (v.pad l).length + x.length := by
      simp only [List.length_append, hs]
    rw [wrapper_with v _ m _ (by omega), digestF_pieces v.alg hb F _ _ hn] at h4
    unfold Guess
    rw [Option.some.inj h1, h2]
    refine ⟨h3, ?_⟩
    have h5 := Option.some.inj h4
    have h6 := pieces_extend v.alg hb (secret k) x
    unfold Variant.pad at h5 hlen ⊢
    rw [h6, chain_append, hlen] at h5
    exact h5
  exact e _ hbl

/-! ## SHA-256 and SHA-512 -/

/-- Absorb the blocks, then name `x` and the digest. -/
def absorb {w : Nat} (n : Nat) (x : Bytes) : Oct w → List Bytes → KdfGame.Prober w (Bytes × Bytes)
  | H, [] => .stop (x, (bytesOf H).take n)
  | H, b :: bs => .compress H b fun y => absorb n x y bs

/-- The attacker of C94: it knows the length `l` of the secret, takes the digest for the chaining value and absorbs the suffix `x`. -/
def extender (v : Variant) (l : Nat) (x d : Bytes) : KdfGame.Prober v.width (Bytes × Bytes) :=
  absorb v.size x (octOf d) (chunks v.block (x ++ padding v.alg x.length (8 * (l + (v.pad l).length + x.length))))

theorem absorb_run {w : Nat} (n : Nat) (x : Bytes) (f : Oct w → Bytes → Oct w) (H : Oct w) (bs : List Bytes) :
    (absorb n x H bs).run f = (x, (bytesOf (bs.foldl f H)).take n) := by
  induction bs generalizing H with
  | nil => rfl
  | cons b bs ih => exact ih _

theorem absorb_within {w : Nat} (n B : Nat) (x : Bytes) (H : Oct w) (bs : List Bytes) (hB : ∀ b ∈ bs, b.length = B) : (absorb n x H bs).Within B bs.length := by
  induction bs generalizing H with
  | nil => trivial
  | cons b bs ih => exact ⟨hB b (by simp), bs.length, by simp, fun y => ih y fun c hc => hB c (by simp [hc])⟩

/-- It evaluates the compression function once for each block. -/
theorem C146_extender_within (v : Variant) (l : Nat) (x d : Bytes) : (extender v l x d).Within v.block (v.blocks x.length) := by
  obtain ⟨hb, -, -, -⟩ := variant_params v
  have h := tail_cost v.alg hb (8 * (l + (v.pad l).length + x.length)) x
  have h2 := congrArg List.length (tail_map v.alg hb (8 * (l + (v.pad l).length + x.length)) x)
  rw [List.length_map, h, variant_cost, variant_block] at h2
  unfold extender
  rw [h2]
  refine absorb_within _ _ _ _ _ (chunks_mem_length ?_ ?_)
  · cases v <;> decide
  · have := tail_length v.alg hb x (8 * (l + (v.pad l).length + x.length))
    rwa [variant_block] at this

/-- **SHA-256 and SHA-512 digests can be extended, whatever the compression function is**: the attacker of C94 always succeeds. -/
theorem C146_extends (v : Variant) (hv : v = .sha256 ∨ v = .sha512) (m : Mode) (F : Fn v.width v.block) (secret x : Bytes)
    (hN : secret.length + (v.pad secret.length).length + x.length < 2 ^ 61) :
    Extends v m (fn F) (extender v secret.length x) x.length secret := by
  obtain ⟨hb, -, hn, -⟩ := variant_params v
  have hbl := variant_block v
  have e : ∀ B (_ : v.alg.blockBytes = B) (F : Fn v.width B), Extends v m (fn F) (extender v secret.length x) x.length secret := by
    rintro _ rfl F
    refine ⟨_, x, _, wrapper_with v _ m _ (by omega), absorb_run _ _ _ _ _, le_rfl, ?_⟩
    have hlen : (secret ++ v.pad secret.length ++ x).length = secret.length + (v.pad secret.length).length + x.length := by
      simp only [List.length_append]
    rw [wrapper_with v _ m _ (by omega), digestF_pieces v.alg hb F _ _ hn, digestF_pieces v.alg hb F _ _ hn]
    have h6 := pieces_extend v.alg hb secret x
    unfold Variant.pad at hlen ⊢
    rw [h6, chain_append, hlen, ← variant_block, ← tail_map v.alg hb, foldl_fn]
    congr 1
    show (bytesOf _).take v.size = (bytesOf _).take v.size
    have ho : octOf (out v.size hn (chain F v.codeIv (pieces v.alg hb secret))).1 = chain F v.codeIv (pieces v.alg hb secret) := by
      show octOf ((bytesOf _).take v.size) = _
      generalize chain F v.codeIv (pieces v.alg hb secret) = H
      rcases hv with rfl | rfl
      · rw [List.take_of_length_le (by rw [bytesOf_length]; decide)]
        exact octOf_words 4 H
      · rw [List.take_of_length_le (by rw [bytesOf_length]; decide)]
        exact octOf_words 8 H
    rw [ho]
  exact e _ hbl F

/-! ## Concrete cases -/

set_option maxRecDepth 10000 in
/-- SHA-384 of a random key of 32 bytes and the text `abc`. The attacker of C94, which takes the hidden bytes for zeros, tries to extend it by one byte: it succeeds with
probability below `2^-120`. -/
example (m : Mode) : prob (fun q : {k : Bytes // k.length = 32} × Fn 64 128 => Extends .sha384 m (fn q.2) (extender .sha384 35 [1]) 1 (q.1.1 ++ [97, 98, 99])) ≤
    1 / 2 ^ 120 := by
  have h := C146_no_extension (K := {k : Bytes // k.length = 32}) .sha384 m (fun k => k.1 ++ [97, 98, 99]) 35 1 (fun k => by simp [k.2]) (by decide) (1 / 256 ^ 32)
    (fun s => ?_) (extender .sha384 35 [1]) 1 fun d _ => C146_extender_within .sha384 35 [1] d
  · refine h.trans ?_
    have h1 : Variant.sha384.size = 48 := rfl
    have h2 : Variant.sha384.blocks 1 = 1 := by decide
    have h3 : Variant.sha384.blocks 35 = 1 := by decide
    have h4 : Variant.sha384.hiddenBytes = 16 := rfl
    have h5 : Variant.sha384.stateBytes = 64 := rfl
    rw [h1, h2, h3, h4, h5]
    norm_num
  · refine le_trans (prob_mono (Q := fun k : {k : Bytes // k.length = 32} => k.1 = s.take 32) fun k hk => ?_) ?_
    · rw [← hk, List.take_left' k.2]
    · by_cases hs : (s.take 32).length = 32
      · rw [show (fun k : {k : Bytes // k.length = 32} => k.1 = s.take 32) = fun k => k = ⟨s.take 32, hs⟩ from funext fun k => propext ⟨fun e => Subtype.ext e, fun e => congrArg Subtype.val e⟩]
        unfold prob
        rw [card_digest, show {k : {k : Bytes // k.length = 32} | k = ⟨s.take 32, hs⟩} = {⟨s.take 32, hs⟩} from rfl, Set.ncard_singleton]
        push_cast
        exact le_rfl
      · refine le_trans (prob_mono (Q := fun _ => False) fun k hk => hs (by rw [← hk]; exact k.2)) ?_
        unfold prob
        simp

set_option maxRecDepth 10000 in
example (m : Mode) (F : Fn 32 64) (key : Bytes) (hk : key.length = 32) : Extends .sha256 m (fn F) (extender .sha256 key.length [1, 2, 3]) 3 key :=
  C146_extends .sha256 (.inl rfl) m F key [1, 2, 3] (by rw [hk]; decide)

end CryptoPure.Props
