import Verif.Spec.TwoHashes
import Verif.Proofs.Layers
import Verif.Props.Collision
import Verif.Props.HmacPrf
import Verif.Props.Cases

/-! # C161: two hash functions, or two MACs, at once

The digests of a message under two hash functions of the crate, one after the other; the tags of a message under two HMACs of the crate with
independent keys, one after the other. Both are at least as secure as the better of the two. -/

namespace CryptoPure.Props.TwoHashes
open CryptoPure.Model CryptoPure.Props CryptoPure.TwoHashes MacGame Spec.Sha2
open Game (prob prob_mono)
open CryptoPure.Props.Cases (inner_bound)
open CryptoPure.Layers (exists_key_le swap_prob)

/-! ## Digests -/

/-- **What is computed.** The digest is the FIPS 180-4 digest of the first function followed by that of the second one. -/
theorem C161_digest (v v' : Variant) (m : Mode) (M : Bytes) (hM : M.length < 2 ^ 61) :
    digests v.code v'.code m M = some (v.fips M ++ v'.fips M) ∧ (v.fips M ++ v'.fips M).length = v.size + v'.size := by
  refine ⟨?_, by rw [List.length_append, fips_length, fips_length]⟩
  unfold digests
  rw [C02_sha2_fips v m M hM, C02_sha2_fips v' m M hM]
  rfl

theorem digests_split (v v' : Variant) (m : Mode) (M d : Bytes) (hM : M.length < 2 ^ 61) (h : digests v.code v'.code m M = some d) :
    d.take v.size = v.fips M ∧ d.drop v.size = v'.fips M := by
  rw [(C161_digest v v' m M hM).1] at h
  obtain rfl := Option.some.inj h
  rw [← fips_length v M]
  exact ⟨List.take_left, List.drop_left⟩

/-- **A collision is a collision of both.** Two different messages with the same two digests have the same digest under the first hash function and under the second
one: it is not enough to break one of them. And two calls of the compression function collide in the computation of the first digest, and two in the computation of the second one. -/
theorem C161_collision (v v' : Variant) (m m' : Mode) (M M' d : Bytes) (hM : M.length < 2 ^ 61) (hM' : M'.length < 2 ^ 61) (hne : M ≠ M')
    (h : digests v.code v'.code m M = some d) (h' : digests v.code v'.code m' M' = some d) :
    (HashCollision v M M' ∧ HashCollision v' M M') ∧
    (∃ p ∈ v.compressions M, ∃ p' ∈ v.compressions M', p ≠ p' ∧ v.output (compress v.alg p.1 p.2) = v.output (compress v.alg p'.1 p'.2)) ∧
    ∃ p ∈ v'.compressions M, ∃ p' ∈ v'.compressions M', p ≠ p' ∧ v'.output (compress v'.alg p.1 p.2) = v'.output (compress v'.alg p'.1 p'.2) := by
  obtain ⟨a, b⟩ := digests_split v v' m M d hM h
  obtain ⟨a', b'⟩ := digests_split v v' m' M' d hM' h'
  have e : v.fips M = v.fips M' := a.symm.trans a'
  have e' : v'.fips M = v'.fips M' := b.symm.trans b'
  refine ⟨⟨hashCollision_of v M M' hM hM' hne e, hashCollision_of v' M M' hM hM' hne e'⟩, ?_, ?_⟩
  · exact C63_sha2_collision v .release .release M M' (v.fips M') hM hM' hne (by rw [C02_sha2_fips v _ M hM, e]) (C02_sha2_fips v _ M' hM')
  · exact C63_sha2_collision v' .release .release M M' (v'.fips M') hM hM' hne (by rw [C02_sha2_fips v' _ M hM, e']) (C02_sha2_fips v' _ M' hM')

/-! ## Tags -/

/-- **The tag is what verification accepts, and nothing else.** Verification accepts RFC 2104's tag under the first key followed by the one under the second key, and no other string. -/
theorem C161_tag (v v' : Variant) (m : Mode) (key key' M : Bytes) (hk : key.length < 2 ^ 61) (hk' : key'.length < 2 ^ 61)
    (hM : v.block + M.length < 2 ^ 61) (hM' : v'.block + M.length < 2 ^ 61) :
    ∃ tag, tags v.code v'.code m key key' M = some tag ∧ tag = Spec.hmac v.fips v.block key M ++ Spec.hmac v'.fips v'.block key' M ∧ tag.length = v.size + v'.size ∧
      ∀ t, check v.code v'.code m key key' M t = some (decide (t = tag)) := by
  have l : (Spec.hmac v.fips v.block key M).length = v.size := by rw [hmac_inputs, fips_length]
  have l' : (Spec.hmac v'.fips v'.block key' M).length = v'.size := by rw [hmac_inputs, fips_length]
  refine ⟨_, ?_, rfl, by rw [List.length_append, l, l'], fun t => ?_⟩
  · unfold tags
    rw [C06_hmac_rfc2104 v m key M hk hM, C06_hmac_rfc2104 v' m key' M hk' hM']
    rfl
  · unfold check
    rw [Proofs.hmac_verify_spec v.lawful m key M _ hk (by rw [v.blockSize_eq]; exact hM), v.blockSize_eq, Proofs.hmac_verify_spec v'.lawful m key' M _ hk' (by rw [v'.blockSize_eq]; exact hM'),
      v'.blockSize_eq, v.digestSize_eq]
    simp only [Option.bind_eq_bind, Option.bind_some]
    congr 1
    rw [Bool.eq_iff_iff, Bool.and_eq_true, decide_eq_true_iff, decide_eq_true_iff, decide_eq_true_iff]
    constructor
    · rintro ⟨e, e'⟩
      rw [e, e', List.take_append_drop]
    · rintro rfl
      rw [← l]
      exact ⟨List.take_left.symm, List.drop_left.symm⟩

/-- **One tag, one message, unless both hash functions are broken.** If the same tag is computed for two messages, whatever the keys, then the messages are the same, or both hash functions have a collision. -/
theorem C161_tag_collision (v v' : Variant) (m : Mode) (k₁ k₁' M₁ k₂ k₂' M₂ tag : Bytes) (hk₁ : k₁.length < 2 ^ 61) (hk₁' : k₁'.length < 2 ^ 61)
    (hk₂ : k₂.length < 2 ^ 61) (hk₂' : k₂'.length < 2 ^ 61) (h₁ : v.block + M₁.length < 2 ^ 61) (h₁' : v'.block + M₁.length < 2 ^ 61)
    (h₂ : v.block + M₂.length < 2 ^ 61) (h₂' : v'.block + M₂.length < 2 ^ 61)
    (h : tags v.code v'.code m k₁ k₁' M₁ = some tag) (h' : tags v.code v'.code m k₂ k₂' M₂ = some tag) :
    M₁ = M₂ ∨ (∃ x y, HashCollision v x y) ∧ ∃ x y, HashCollision v' x y := by
  obtain ⟨t₁, a₁, b₁, c₁, -⟩ := C161_tag v v' m k₁ k₁' M₁ hk₁ hk₁' h₁ h₁'
  obtain ⟨t₂, a₂, b₂, c₂, -⟩ := C161_tag v v' m k₂ k₂' M₂ hk₂ hk₂' h₂ h₂'
  obtain rfl := Option.some.inj (a₁.symm.trans h)
  obtain rfl := Option.some.inj (a₂.symm.trans h')
  obtain ⟨e, e'⟩ := List.append_inj (b₁.symm.trans b₂) (by rw [hmac_inputs, hmac_inputs, fips_length, fips_length])
  by_cases hne : M₁ = M₂
  · exact .inl hne
  refine .inr ⟨?_, ?_⟩
  · rcases C64_hmac_collision v m m k₁ M₁ k₂ M₂ _ hk₁ hk₂ h₁ h₂ (C06_hmac_rfc2104 v m k₁ M₁ hk₁ h₁) (by rw [C06_hmac_rfc2104 v m k₂ M₂ hk₂ h₂, e]) with c | c | c
    · exact absurd c.2 hne
    · exact ⟨_, _, c⟩
    · exact ⟨_, _, c⟩
  · rcases C64_hmac_collision v' m m k₁' M₁ k₂' M₂ _ hk₁' hk₂' h₁' h₂' (C06_hmac_rfc2104 v' m k₁' M₁ hk₁' h₁') (by rw [C06_hmac_rfc2104 v' m k₂' M₂ hk₂' h₂', e']) with c | c | c
    · exact absurd c.2 hne
    · exact ⟨_, _, c⟩
    · exact ⟨_, _, c⟩

/-! ## Forgery -/

/-- The attacker's world: both MACs of the crate, each with its own key. (The compression functions are public.) -/
def twoWorld (v v' : Variant) (m : Mode) (key key' : Bytes) : World v.width where
  compress := v.fipsCompress
  tag M := tags v.code v'.code m key key' M
  verify M t := check v.code v'.code m key key' M t

theorem onFirst_forges (v v' : Variant) (m : Mode) (key key' : Bytes) {R : Type} (X : Attacker v.width R) (log : List Bytes)
    (h : forges (twoWorld v v' m key key') X log) : forges (crateWorld v m key) (onFirst (crateWorld v' m key') v.size X) log := by
  induction X generalizing log with
  | stop r => exact h
  | compress H b next ih => exact ih _ log h
  | tag M next ih =>
    rw [forges] at h
    change (match tags v.code v'.code m key key' M with | none => False | some t => forges (twoWorld v v' m key key') (next t) (M :: log)) at h
    unfold tags at h
    rw [onFirst]
    cases e : Hmac.wrapper v.code m key M with
    | none => rw [e] at h; exact h.elim
    | some t =>
      cases e' : Hmac.wrapper v'.code m key' M with
      | none => rw [e, e'] at h; exact h.elim
      | some t' =>
        rw [e, e'] at h
        rw [show (crateWorld v' m key').tag M = some t' from e']
        dsimp only
        rw [forges, show (crateWorld v m key).tag M = some t from e]
        exact ih _ _ h
  | verify M t next ih =>
    rw [forges] at h
    change (M ∉ log ∧ check v.code v'.code m key key' M t = some true) ∨
      (match check v.code v'.code m key key' M t with | none => False | some b => forges (twoWorld v v' m key key') (next b) log) at h
    unfold check at h
    rw [v.digestSize_eq] at h
    rw [onFirst]
    cases e : Hmac.verify v.code m key M (t.take v.size) with
    | none => rw [e] at h; rcases h with ⟨_, h⟩ | h; cases h; exact h.elim
    | some b =>
      cases e' : Hmac.verify v'.code m key' M (t.drop v.size) with
      | none => rw [e, e'] at h; rcases h with ⟨_, h⟩ | h; cases h; exact h.elim
      | some b' =>
        rw [e, e'] at h
        rw [show (crateWorld v' m key').verify M (t.drop v.size) = some b' from e']
        dsimp only
        rw [forges, show (crateWorld v m key).verify M (t.take v.size) = some b from e]
        rcases h with ⟨h1, h2⟩ | h
        · have := Option.some.inj h2
          exact .inl ⟨h1, congrArg some (Bool.and_eq_true_iff.mp this).1⟩
        · exact .inr (ih _ _ h)

theorem onSecond_forges (v v' : Variant) (m : Mode) (key key' : Bytes) {R : Type} (X : Attacker v.width R) (log : List Bytes)
    (h : forges (twoWorld v v' m key key') X log) : forges (crateWorld v' m key') (onSecond (crateWorld v m key) v.size X) log := by
  induction X generalizing log with
  | stop r => exact h
  | compress H b next ih => exact ih _ log h
  | tag M next ih =>
    rw [forges] at h
    change (match tags v.code v'.code m key key' M with | none => False | some t => forges (twoWorld v v' m key key') (next t) (M :: log)) at h
    unfold tags at h
    rw [onSecond]
    cases e : Hmac.wrapper v.code m key M with
    | none => rw [e] at h; exact h.elim
    | some t =>
      cases e' : Hmac.wrapper v'.code m key' M with
      | none => rw [e, e'] at h; exact h.elim
      | some t' =>
        rw [e, e'] at h
        rw [show (crateWorld v m key).tag M = some t from e]
        dsimp only
        rw [forges, show (crateWorld v' m key').tag M = some t' from e']
        exact ih _ _ h
  | verify M t next ih =>
    rw [forges] at h
    change (M ∉ log ∧ check v.code v'.code m key key' M t = some true) ∨
      (match check v.code v'.code m key key' M t with | none => False | some b => forges (twoWorld v v' m key key') (next b) log) at h
    unfold check at h
    rw [v.digestSize_eq] at h
    rw [onSecond]
    cases e : Hmac.verify v.code m key M (t.take v.size) with
    | none => rw [e] at h; rcases h with ⟨_, h⟩ | h; cases h; exact h.elim
    | some b =>
      cases e' : Hmac.verify v'.code m key' M (t.drop v.size) with
      | none => rw [e, e'] at h; rcases h with ⟨_, h⟩ | h; cases h; exact h.elim
      | some b' =>
        rw [e, e'] at h
        rw [show (crateWorld v m key).verify M (t.take v.size) = some b from e]
        dsimp only
        rw [forges, show (crateWorld v' m key').verify M (t.drop v.size) = some b' from e']
        rcases h with ⟨h1, h2⟩ | h
        · have := Option.some.inj h2
          exact .inl ⟨h1, congrArg some (Bool.and_eq_true_iff.mp this).2⟩
        · exact .inr (ih _ _ h)

theorem onFirst_limits {w w' N : Nat} {R : Type} (W' : World w') (n : Nat) (X : Attacker w R) (q t : Nat) (hX : X.Short N) (hq : X.Uses q t) :
    (onFirst W' n X).Short N ∧ (onFirst W' n X).Uses q t := by
  induction X generalizing q t with
  | stop r => exact ⟨trivial, trivial⟩
  | compress H b next ih => exact ⟨fun y => (ih y q t (hX y) (hq y)).1, fun y => (ih y q t (hX y) (hq y)).2⟩
  | tag M next ih =>
    obtain ⟨hM, hX⟩ := hX
    obtain ⟨q, rfl, hq⟩ := hq
    unfold onFirst
    split
    · exact ⟨trivial, trivial⟩
    · exact ⟨⟨hM, fun y => (ih _ q t (hX _) (hq _)).1⟩, q, rfl, fun y => (ih _ q t (hX _) (hq _)).2⟩
  | verify M s next ih =>
    obtain ⟨hM, hX⟩ := hX
    obtain ⟨q, rfl, t, rfl, hq⟩ := hq
    unfold onFirst
    split
    · exact ⟨trivial, trivial⟩
    · exact ⟨⟨hM, fun y => (ih _ q t (hX _) (hq _)).1⟩, q, rfl, t, rfl, fun y => (ih _ q t (hX _) (hq _)).2⟩

theorem onSecond_limits {w w' N : Nat} {R : Type} (W : World w) (n : Nat) (X : Attacker w R) (q t : Nat) (hX : X.Short N) (hq : X.Uses q t) :
    (onSecond (w' := w') W n X).Short N ∧ (onSecond (w' := w') W n X).Uses q t := by
  induction X generalizing q t with
  | stop r => exact ⟨trivial, trivial⟩
  | compress H b next ih => exact ih _ q t (hX _) (hq _)
  | tag M next ih =>
    obtain ⟨hM, hX⟩ := hX
    obtain ⟨q, rfl, hq⟩ := hq
    unfold onSecond
    split
    · exact ⟨trivial, trivial⟩
    · exact ⟨⟨hM, fun y => (ih _ q t (hX _) (hq _)).1⟩, q, rfl, fun y => (ih _ q t (hX _) (hq _)).2⟩
  | verify M s next ih =>
    obtain ⟨hM, hX⟩ := hX
    obtain ⟨q, rfl, t, rfl, hq⟩ := hq
    unfold onSecond
    split
    · exact ⟨trivial, trivial⟩
    · exact ⟨⟨hM, fun y => (ih _ q t (hX _) (hq _)).1⟩, q, rfl, t, rfl, fun y => (ih _ q t (hX _) (hq _)).2⟩

/-- Strings of a given length. -/
abbrev Str (n : Nat) := {k : Bytes // k.length = n}

instance (n : Nat) : Nonempty (Str n) := ⟨⟨zeros n, by simp [zeros]⟩⟩
instance (n : Nat) : Finite (Str n) := inferInstance

/-- **Whoever forges the double tag forges the first one.** Both keys are random. The attacker may have double tags computed and verified as often as it likes. It gets a double tag accepted for
a message whose tag it has not asked for with at most the probability that some attack on the first HMAC of the crate alone succeeds; and with at most the probability that some attack on the second one alone does.
The attack on the one is made by an attacker who has chosen the key of the other. -/
theorem C161_both (v v' : Variant) (m : Mode) (kl kl' : Nat) {R : Type} (X : Attacker v.width R) :
    (∃ key' : Str kl', prob (fun q : Str kl × Str kl' => forges (twoWorld v v' m q.1.1 q.2.1) X []) ≤
      prob (fun key : Str kl => forges (crateWorld v m key.1) (onFirst (crateWorld v' m key'.1) v.size X) [])) ∧
    ∃ key : Str kl, prob (fun q : Str kl × Str kl' => forges (twoWorld v v' m q.1.1 q.2.1) X []) ≤
      prob (fun key' : Str kl' => forges (crateWorld v' m key'.1) (onSecond (crateWorld v m key.1) v.size X) []) := by
  constructor
  · obtain ⟨key', h⟩ := exists_key_le fun q : Str kl × Str kl' => forges (twoWorld v v' m q.1.1 q.2.1) X []
    exact ⟨key', h.trans (prob_mono fun key => onFirst_forges v v' m key.1 key'.1 X [])⟩
  · obtain ⟨key, h⟩ := exists_key_le fun q : Str kl' × Str kl => forges (twoWorld v v' m q.2.1 q.1.1) X []
    refine ⟨key, ?_⟩
    rw [swap_prob]
    exact h.trans (prob_mono fun key' => onSecond_forges v v' m key.1 key'.1 X [])

/-- **The double tag is safe if the first compression function is pseudorandom** (even if the other hash function is broken): the bound of C122 for the attack on the first HMAC. -/
theorem C161_first (v v' : Variant) (m : Mode) (kl kl' N : Nat) (hk : kl ≤ v.block) (hN : v.block + N < 2 ^ 61) {R : Type} (X : Attacker v.width R)
    (q t : Nat) (hX : X.Short N) (hq : X.Uses q t) (δ : ℚ) (hδ0 : 0 ≤ δ)
    (hδ : ∀ M M' : Bytes, M.length ≤ N → M'.length ≤ N → M ≠ M' → innerCollision v M M' ≤ δ) :
    ∃ key' : Str kl', prob (fun q : Str kl × Str kl' => forges (twoWorld v v' m q.1.1 q.2.1) X []) ≤
      t / 256 ^ v.size + (keyAdvantage v kl (forger (onFirst (crateWorld v' m key'.1) v.size X) []) +
        outerAdvantage v (forger (onFirst (crateWorld v' m key'.1) v.size X) []) + q * (q - 1) / 2 * δ) := by
  obtain ⟨key', h⟩ := (C161_both v v' m kl kl' X).1
  obtain ⟨s, u⟩ := onFirst_limits (crateWorld v' m key'.1) v.size X q t hX hq
  exact ⟨key', h.trans (C122_unforgeable v m kl N hk hN _ q t s u δ hδ0 hδ)⟩

/-- **The double tag is safe if the second compression function is pseudorandom** (even if the other hash function is broken): the bound of C122 for the attack on the second HMAC. -/
theorem C161_second (v v' : Variant) (m : Mode) (kl kl' N : Nat) (hk : kl' ≤ v'.block) (hN : v'.block + N < 2 ^ 61) {R : Type} (X : Attacker v.width R)
    (q t : Nat) (hX : X.Short N) (hq : X.Uses q t) (δ : ℚ) (hδ0 : 0 ≤ δ)
    (hδ : ∀ M M' : Bytes, M.length ≤ N → M'.length ≤ N → M ≠ M' → innerCollision v' M M' ≤ δ) :
    ∃ key : Str kl, prob (fun q : Str kl × Str kl' => forges (twoWorld v v' m q.1.1 q.2.1) X []) ≤
      t / 256 ^ v'.size + (keyAdvantage v' kl' (forger (onSecond (crateWorld v m key.1) v.size X) []) +
        outerAdvantage v' (forger (onSecond (crateWorld v m key.1) v.size X) []) + q * (q - 1) / 2 * δ) := by
  obtain ⟨key, h⟩ := (C161_both v v' m kl kl' X).2
  obtain ⟨s, u⟩ := onSecond_limits (w' := v'.width) (crateWorld v m key.1) v.size X q t hX hq
  exact ⟨key, h.trans (C122_unforgeable v' m kl' N hk hN _ q t s u δ hδ0 hδ)⟩

/-! ## Concrete cases -/

example (m : Mode) := (C161_digest .sha256 .sha512 m [1, 2, 3] (by decide)).2

theorem v_size_le (v : Variant) : v.size ≤ 64 := by cases v <;> decide

/-- The hypotheses of the theorem on collisions are met: there are two messages, one byte longer than both digests, with the same two digests. -/
example (v v' : Variant) (m : Mode) : ∃ M M' d, M.length < 2 ^ 61 ∧ M'.length < 2 ^ 61 ∧ M ≠ M' ∧
    digests v.code v'.code m M = some d ∧ digests v.code v'.code m M' = some d := by
  obtain ⟨M, M', h1, h2, h3, h4⟩ := pigeonhole (fun M => v.fips M ++ v'.fips M) (v.size + v'.size) (fun x => by rw [List.length_append, fips_length, fips_length])
  have hs := v_size_le v
  have hs' := v_size_le v'
  have hM : M.length < 2 ^ 61 := by omega
  have hM' : M'.length < 2 ^ 61 := by omega
  refine ⟨M, M', _, hM, hM', h3, (C161_digest v v' m M hM).1, ?_⟩
  rw [(C161_digest v v' m M' hM').1]
  exact congrArg some h4.symm

/-- Two messages with the same double tag, under the same keys. -/
example (m : Mode) (key key' : Str 32) : ∃ M M' tag, M ≠ M' ∧ M.length = 97 ∧ M'.length = 97 ∧
    tags Variant.sha256.code Variant.sha512.code m key.1 key'.1 M = some tag ∧ tags Variant.sha256.code Variant.sha512.code m key.1 key'.1 M' = some tag := by
  have hk : key.1.length < 2 ^ 61 := by rw [key.2]; decide
  have hk' : key'.1.length < 2 ^ 61 := by rw [key'.2]; decide
  have hb : Variant.sha256.block = 64 := rfl
  have hb' : Variant.sha512.block = 128 := rfl
  obtain ⟨M, M', h1, h2, h3, h4⟩ := pigeonhole (fun M => Spec.hmac Variant.sha256.fips 64 key.1 M ++ Spec.hmac Variant.sha512.fips 128 key'.1 M) 96
    (fun x => by rw [List.length_append]; exact congrArg₂ (· + ·) (fips_length .sha256 _) (fips_length .sha512 _))
  obtain ⟨t, a, b, -, -⟩ := C161_tag .sha256 .sha512 m key.1 key'.1 M hk hk' (by omega) (by omega)
  obtain ⟨t', a', b', -, -⟩ := C161_tag .sha256 .sha512 m key.1 key'.1 M' hk hk' (by omega) (by omega)
  exact ⟨M, M', t, h3, h1, h2, a, by rw [a', b', b]; exact congrArg some h4.symm⟩

/-- An attacker that asks for a double tag and tries it for another message. -/
def reuse : Attacker 32 Bool := .tag [1] fun t => .verify [2] t fun b => .stop b

theorem reuse_limits : reuse.Short 1 ∧ reuse.Uses 2 1 := ⟨⟨by decide, fun _ => ⟨by decide, fun _ => trivial⟩⟩, 1, rfl, fun _ => ⟨0, rfl, 0, rfl, fun _ => trivial⟩⟩

example (m : Mode) := C161_first .sha256 .sha512 m 32 64 1 (by decide) (by decide) reuse 2 1 reuse_limits.1 reuse_limits.2 _ (by positivity) (inner_bound 1 (by decide))
example (m : Mode) (δ : ℚ) (hδ0 : 0 ≤ δ) (hδ : ∀ M M' : Bytes, M.length ≤ 1 → M'.length ≤ 1 → M ≠ M' → innerCollision .sha512 M M' ≤ δ) :=
  C161_second .sha256 .sha512 m 32 64 1 (by decide) (by decide) reuse 2 1 reuse_limits.1 reuse_limits.2 δ hδ0 hδ

/-- The attack is possible: an attacker who has the right string verified succeeds. -/
example (m : Mode) (key key' : Bytes) (hk : key.length < 2 ^ 61) (hk' : key'.length < 2 ^ 61) :
    forges (twoWorld .sha256 .sha512 m key key') (.verify [2] (Spec.hmac Variant.sha256.fips 64 key [2] ++ Spec.hmac Variant.sha512.fips 128 key' [2]) fun b => .stop b) [] := by
  obtain ⟨t, -, b, -, d⟩ := C161_tag .sha256 .sha512 m key key' [2] hk hk' (by decide) (by decide)
  rw [forges]
  refine Or.inl ⟨by simp, ?_⟩
  show check _ _ _ _ _ _ _ = _
  rw [d]
  exact congrArg some (decide_eq_true b.symm)

end CryptoPure.Props.TwoHashes
