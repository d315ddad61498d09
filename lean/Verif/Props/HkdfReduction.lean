import Verif.Props.HkdfIdeal
import Verif.Props.HmacPrf

/-! # C123: keys from HKDF-Expand of the crate are pseudorandom if the compression function is

As C122, for `hkdf::expand` under a random key: the attacker on `expand` is turned into an attacker on HMAC by `viaTags`
(Verif/Props/HkdfIdeal.lean), which asks for the tags that `expand` computes. -/

namespace CryptoPure.Props
open CryptoPure.Model Spec.Sha2 Proofs Proofs.HmacSha Proofs.HmacPrf HmacTests Distinguisher
open Game hiding play forges

/-- The attacker's world: `expand` of the crate under a key. (The compression function is public.) -/
def crateKdf (v : Variant) (m : Mode) (prk : Bytes) : KdfGame.World v.width where
  compress := v.fipsCompress
  derive info okm := Hkdf.expand v.code m prk info okm

/-- The number of tags that `expand` computes for an output of `okm` bytes. -/
def Variant.expandTags (v : Variant) (_info okm : Nat) : Nat := (okm + v.size - 1) / v.size

theorem askTags_uses {w : Nat} {R : Type} (n : Nat) (info prev : Bytes) (i k q : Nat) (next : Bytes → MacGame.Attacker w R)
    (h : ∀ r, (next r).Uses q 0) : (askTags n info prev i k next).Uses (q + k) 0 := by
  induction k generalizing prev i next with
  | zero => exact h []
  | succ k ih => exact ⟨q + k, by omega, fun t => ih _ _ _ fun r => h _⟩

theorem askTags_short {w N n : Nat} {R : Type} (info : Bytes) (hi : n + info.length + 1 ≤ N) (prev : Bytes) (hp : prev.length ≤ n) (i k : Nat)
    (next : Bytes → MacGame.Attacker w R) (h : ∀ r, (next r).Short N) : (askTags n info prev i k next).Short N := by
  induction k generalizing prev i next with
  | zero => exact h []
  | succ k ih => exact ⟨by simp; omega, fun t => ih _ (by simp) _ _ fun r => h _⟩

theorem viaTags_uses {w B I L : Nat} {R : Type} (n : Nat) (X : KdfGame.Attacker w R) (p q : Nat)
    (hX : X.Within B I L (fun _ l => (l + n - 1) / n) p q) : (viaTags n X).Uses q 0 := by
  induction X generalizing p q with
  | stop r => trivial
  | compress H b next ih =>
    obtain ⟨-, p, rfl, h⟩ := hX
    exact fun y => ih y _ _ (h y)
  | derive info okm next ih =>
    obtain ⟨h1, h2, q, rfl, h⟩ := hX
    exact askTags_uses _ _ _ _ _ _ _ fun r => ih _ _ _ (h _)

theorem viaTags_short {w B I L N : Nat} {R : Type} (n : Nat) (cost : Nat → Nat → Nat) (hI : n + I + 1 ≤ N) (X : KdfGame.Attacker w R) (p q : Nat)
    (hX : X.Within B I L cost p q) : (viaTags n X).Short N := by
  induction X generalizing p q with
  | stop r => trivial
  | compress H b next ih =>
    obtain ⟨-, p, rfl, h⟩ := hX
    exact fun y => ih y _ _ (h y)
  | derive info okm next ih =>
    obtain ⟨h1, h2, q, rfl, h⟩ := hX
    exact askTags_short _ (by omega) _ (by simp) _ _ _ fun r => ih _ _ _ (h _)

/-- The attacker on HMAC does what the attacker on `expand` does. -/
theorem C123_runs (v : Variant) (m : Mode) (prk : Bytes) (I L : Nat) (h1 : v.size ≤ prk.length)
    (h2 : prk.length ≤ v.block) (hI : v.block + (v.size + I + 1) < 2 ^ 61) (hL : L ≤ 255 * v.size) (hm : m = .debug → L < 254 * v.size) {R : Type}
    (X : KdfGame.Attacker v.width R) (p q : Nat) (hX : X.Within v.block I L v.expandTags p q) :
    MacGame.play (crateWorld v m prk) (viaTags v.size X) = KdfGame.play (crateKdf v m prk) X := by
  have hs : 0 < v.size := by cases v <;> decide
  have hvb : v.block ≤ 128 := by cases v <;> decide
  have hd := v.digestSize_eq
  have hb := v.blockSize_eq
  have hlen : ∀ x, (Spec.hmac v.fips v.block prk x).length = v.size := fun x => by
    have := hmac_length v.lawful prk x
    rw [hd, hb] at this
    exact this
  refine play_viaTags (crateWorld v m prk) (Spec.hmac v.fips v.block prk) v.size (v.size + I + 1) I L v.block v.expandTags hs hL hlen
    (fun M hM => ?_) (le_refl _) X p q hX (crateKdf v m prk).derive (fun info okm hi ho => ?_)
  · exact C06_hmac_rfc2104 v m prk M (by omega) (by omega)
  · show Hkdf.expand _ m prk info okm = _
    rw [expand_spec prk info v.lawful m okm (by omega) (by rw [hb, hd]; omega), hd, hb, if_pos ⟨h1, by omega, fun e => by have := hm e; omega⟩, expandWith_eq]
    unfold Spec.hkdfExpand
    refine congrArg (fun l => some (List.take okm.length l)) (List.flatMap_congr fun i _ => ?_)
    exact (blockWith_hmac _ v.fips v.block v.size prk info (fun x => by rw [v.lawful.hashLen, hd]) (fun x _ => rfl) _).symm

/-- **`expand` of the crate is pseudorandom if the compression function is.** The attacker has keys derived by `expand` of the crate under a random `prk` of
`kl` bytes, for contexts and lengths that it chooses, `q` digests altogether, and ends with a guess. It tells these keys from the first bytes of the
values of a random function of the context (keys for different contexts are independent and uniform) with at most the advantages of the two tests of
C122, for the attacker on HMAC made of it, plus `q (q - 1) / 2` times the probability that two texts collide in the inner hash. -/
theorem C123_expand_prf (v : Variant) (m : Mode) (kl I L : Nat) (h1 : v.size ≤ kl) (h2 : kl ≤ v.block)
    (hI : v.block + (v.size + I + 1) < 2 ^ 61) (hL : L ≤ 255 * v.size) (hm : m = .debug → L < 254 * v.size)
    (X : KdfGame.Attacker v.width Bool) (p q : Nat) (hX : X.Within v.block I L v.expandTags p q) (δ : ℚ) (hδ0 : 0 ≤ δ)
    (hδ : ∀ M M' : Bytes, M.length ≤ v.size + I + 1 → M'.length ≤ v.size + I + 1 → M ≠ M' → innerCollision v M M' ≤ δ) :
    |prob (fun k : {k : Bytes // k.length = kl} => KdfGame.play (crateKdf v m k.1) X = some true) -
      prob (fun U : Keyed I (255 * v.size) => KdfGame.play (idealKdf v.fipsCompress U) X = some true)| ≤
    keyAdvantage v kl (viaTags v.size X) + outerAdvantage v (viaTags v.size X) + q * (q - 1) / 2 * δ := by
  have hs : 0 < v.size := by cases v <;> decide
  have h := C122_prf v m kl (v.size + I + 1) h2 hI (viaTags v.size X) q 0 (viaTags_short v.size v.expandTags (le_refl _) X p q hX)
    (viaTags_uses v.size X p q hX) δ hδ0 hδ
  refine le_trans (le_of_eq ?_) h
  congr 2
  · refine hmac_prob_congr fun k => ?_
    have hk := k.2
    rw [C123_runs v m k.1 I L (by omega) (by omega) hI hL hm X p q hX]
  · have e : ∀ G : Keyed (v.size + I + 1) v.size,
        MacGame.play (idealWorld v.fipsCompress G) (viaTags v.size X) = KdfGame.play (idealKdf v.fipsCompress (allKeys I G)) X := fun G =>
      play_viaTags (idealWorld v.fipsCompress G) G.ask v.size (v.size + I + 1) I L v.block v.expandTags hs hL (ask_length G)
        (fun M _ => rfl) (le_refl _) X p q hX (idealKdf v.fipsCompress (allKeys I G)).derive
        (fun info okm hi ho => congrArg some (allKeys_take G info hi okm.length (by omega)))
    simp only [e]
    exact (prob_allKeys (le_refl (v.size + I + 1)) (fun U => KdfGame.play (idealKdf v.fipsCompress U) X = some true)).symm

/-- **HKDF-Expand with SHA-256 and SHA-512**: with the tests of C122 for the inner hash. -/
theorem C123_full_prf (v : Variant) (hv : v = .sha256 ∨ v = .sha512) (m : Mode) (kl I L : Nat) (h1 : v.size ≤ kl) (h2 : kl ≤ v.block)
    (hI : v.block + (v.size + I + 1) < 2 ^ 61) (hL : L ≤ 255 * v.size) (hm : m = .debug → L < 254 * v.size)
    (X : KdfGame.Attacker v.width Bool) (p q : Nat) (hX : X.Within v.block I L v.expandTags p q) (ε : ℚ) (hε0 : 0 ≤ ε)
    (hε : ∀ M M' : Bytes, M.length ≤ v.size + I + 1 → M'.length ≤ v.size + I + 1 → ∀ D ∈ collisionTestsOf v M M', chainAdvantage v D ≤ ε) :
    |prob (fun k : {k : Bytes // k.length = kl} => KdfGame.play (crateKdf v m k.1) X = some true) -
      prob (fun U : Keyed I (255 * v.size) => KdfGame.play (idealKdf v.fipsCompress U) X = some true)| ≤
    keyAdvantage v kl (viaTags v.size X) + outerAdvantage v (viaTags v.size X) +
      q * (q - 1) / 2 * ((v.blocks (v.size + I + 1) + 1) * ε + 1 / 256 ^ v.size) :=
  C123_expand_prf v m kl I L h1 h2 hI hL hm X p q hX _ (by positivity) fun M M' hM hM' hne =>
    C122_inner v hv (v.size + I + 1) hI ε hε0 hε M M' hM hM' hne

/-! ## A concrete case -/

theorem tryKey_tags : tryKey.Within Variant.sha256.block 1 42 Variant.sha256.expandTags 1 3 :=
  ⟨by decide, by decide, 1, by decide, fun t => ⟨by
    have : Variant.sha256.block = 64 := rfl
    rw [this]; simp, 0, rfl, fun H => ⟨by decide, by decide, 0, by decide, fun b => trivial⟩⟩⟩

example (m : Mode) : |prob (fun k : {k : Bytes // k.length = 32} => KdfGame.play (crateKdf .sha256 m k.1) tryKey = some true) -
      prob (fun U : Keyed 1 (255 * 32) => KdfGame.play (idealKdf Variant.sha256.fipsCompress U) tryKey = some true)| ≤
    keyAdvantage .sha256 32 (viaTags 32 tryKey) + outerAdvantage .sha256 (viaTags 32 tryKey) +
      (3 : Nat) * ((3 : Nat) - 1) / 2 * ((Variant.sha256.blocks 34 + 1) * 1 + 1 / 256 ^ 32) :=
  C123_full_prf .sha256 (Or.inl rfl) m 32 1 42 (by decide) (by decide) (by decide) (by decide) (fun _ => by decide) tryKey 1 3 tryKey_tags 1 zero_le_one
    fun _ _ _ _ D _ => chainAdvantage_le_one .sha256 D

end CryptoPure.Props
